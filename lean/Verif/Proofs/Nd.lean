import Verif.Proofs.Struct

/-! Tensors of fixed rank with entries given by functions of natural-number indices. -/

namespace NNJ
open Tensor

variable {α : Type}

/-- `t` has shape `[a, b]` and `t[i, j] = F i j` in range; `N1`, `N3`, `N4`, `N5` for other ranks -/
def N1 (t : Tensor α) (a : Nat) (F : Nat → α) : Prop := t.shape = [a] ∧ ∀ i, i < a → t.get [i] = F i
def N2 (t : Tensor α) (a b : Nat) (F : Nat → Nat → α) : Prop :=
  t.shape = [a, b] ∧ ∀ i j, i < a → j < b → t.get [i, j] = F i j
def N3 (t : Tensor α) (a b c : Nat) (F : Nat → Nat → Nat → α) : Prop :=
  t.shape = [a, b, c] ∧ ∀ i j k, i < a → j < b → k < c → t.get [i, j, k] = F i j k
def N4 (t : Tensor α) (a b c d : Nat) (F : Nat → Nat → Nat → Nat → α) : Prop :=
  t.shape = [a, b, c, d] ∧ ∀ i j k l, i < a → j < b → k < c → l < d → t.get [i, j, k, l] = F i j k l
def N5 (t : Tensor α) (a b c d e : Nat) (F : Nat → Nat → Nat → Nat → Nat → α) : Prop :=
  t.shape = [a, b, c, d, e] ∧ ∀ i j k l m, i < a → j < b → k < c → l < d → m < e → t.get [i, j, k, l, m] = F i j k l m

section
variable {t r : Tensor α} {a b c d e : Nat}

theorem N1.congr {F G : Nat → α} (h : N1 t a F) (e : ∀ i, i < a → F i = G i) : N1 t a G :=
  ⟨h.1, fun i hi => by rw [h.2 i hi, e i hi]⟩
theorem N2.congr {F G : Nat → Nat → α} (h : N2 t a b F) (e : ∀ i j, i < a → j < b → F i j = G i j) : N2 t a b G :=
  ⟨h.1, fun i j hi hj => by rw [h.2 i j hi hj, e i j hi hj]⟩
theorem N3.congr {F G : Nat → Nat → Nat → α} (h : N3 t a b c F)
    (e : ∀ i j k, i < a → j < b → k < c → F i j k = G i j k) : N3 t a b c G :=
  ⟨h.1, fun i j k hi hj hk => by rw [h.2 i j k hi hj hk, e i j k hi hj hk]⟩
theorem N4.congr {F G : Nat → Nat → Nat → Nat → α} (h : N4 t a b c d F)
    (e : ∀ i j k l, i < a → j < b → k < c → l < d → F i j k l = G i j k l) : N4 t a b c d G :=
  ⟨h.1, fun i j k l hi hj hk hl => by rw [h.2 i j k l hi hj hk hl, e i j k l hi hj hk hl]⟩
theorem N5.congr {F G : Nat → Nat → Nat → Nat → Nat → α} (h : N5 t a b c d e F)
    (e' : ∀ i j k l m, i < a → j < b → k < c → l < d → m < e → F i j k l m = G i j k l m) : N5 t a b c d e G :=
  ⟨h.1, fun i j k l m hi hj hk hl hm => by rw [h.2 i j k l m hi hj hk hl hm, e' i j k l m hi hj hk hl hm]⟩

theorem N1.data {F : Nat → α} (h : N1 t a F) {i : Nat} (hi : i < a) : t.data i = F i := by rw [← h.2 i hi, get1 h.1]
theorem N2.data {F : Nat → Nat → α} (h : N2 t a b F) {i j : Nat} (hi : i < a) (hj : j < b) :
    t.data (i * b + j) = F i j := by rw [← h.2 i j hi hj, get2 h.1]
theorem N3.data {F : Nat → Nat → Nat → α} (h : N3 t a b c F) {i j k : Nat} (hi : i < a) (hj : j < b) (hk : k < c) :
    t.data ((i * b + j) * c + k) = F i j k := by
  rw [← h.2 i j k hi hj hk, get3 h.1]; congr 1; ring
theorem N4.data {F : Nat → Nat → Nat → Nat → α} (h : N4 t a b c d F) {i j k l : Nat} (hi : i < a) (hj : j < b)
    (hk : k < c) (hl : l < d) : t.data (((i * b + j) * c + k) * d + l) = F i j k l := by
  rw [← h.2 i j k l hi hj hk hl, get4 h.1]; congr 1; ring
theorem N5.data {F : Nat → Nat → Nat → Nat → Nat → α} (h : N5 t a b c d e F) {i j k l m : Nat} (hi : i < a) (hj : j < b)
    (hk : k < c) (hl : l < d) (hm : m < e) : t.data ((((i * b + j) * c + k) * d + l) * e + m) = F i j k l m := by
  rw [← h.2 i j k l m hi hj hk hl hm, get5 h.1]; congr 1; ring

theorem N1.of_data {F : Nat → α} (hs : t.shape = [a]) (h : ∀ i, i < a → t.data i = F i) : N1 t a F :=
  ⟨hs, fun i hi => by rw [get1 hs, h i hi]⟩
theorem N2.of_data {F : Nat → Nat → α} (hs : t.shape = [a, b]) (h : ∀ i j, i < a → j < b → t.data (i * b + j) = F i j) :
    N2 t a b F := ⟨hs, fun i j hi hj => by rw [get2 hs, h i j hi hj]⟩
theorem N3.of_data {F : Nat → Nat → Nat → α} (hs : t.shape = [a, b, c])
    (h : ∀ i j k, i < a → j < b → k < c → t.data ((i * b + j) * c + k) = F i j k) : N3 t a b c F :=
  ⟨hs, fun i j k hi hj hk => by rw [get3 hs, ← h i j k hi hj hk]; congr 1; ring⟩
theorem N4.of_data {F : Nat → Nat → Nat → Nat → α} (hs : t.shape = [a, b, c, d])
    (h : ∀ i j k l, i < a → j < b → k < c → l < d → t.data (((i * b + j) * c + k) * d + l) = F i j k l) : N4 t a b c d F :=
  ⟨hs, fun i j k l hi hj hk hl => by rw [get4 hs, ← h i j k l hi hj hk hl]; congr 1; ring⟩
theorem N5.of_data {F : Nat → Nat → Nat → Nat → Nat → α} (hs : t.shape = [a, b, c, d, e])
    (h : ∀ i j k l m, i < a → j < b → k < c → l < d → m < e → t.data ((((i * b + j) * c + k) * d + l) * e + m) = F i j k l m) :
    N5 t a b c d e F :=
  ⟨hs, fun i j k l m hi hj hk hl hm => by rw [get5 hs, ← h i j k l m hi hj hk hl hm]; congr 1; ring⟩

theorem N1.numel {F : Nat → α} (h : N1 t a F) : t.numel = a := by simp [Tensor.numel, h.1]
theorem N2.numel {F : Nat → Nat → α} (h : N2 t a b F) : t.numel = a * b := by simp [Tensor.numel, h.1]
theorem N3.numel {F : Nat → Nat → Nat → α} (h : N3 t a b c F) : t.numel = a * b * c := by
  simp [Tensor.numel, h.1, Nat.mul_assoc]
theorem N4.numel {F : Nat → Nat → Nat → Nat → α} (h : N4 t a b c d F) : t.numel = a * b * c * d := by
  simp [Tensor.numel, h.1, Nat.mul_assoc]
theorem N5.numel {F : Nat → Nat → Nat → Nat → Nat → α} (h : N5 t a b c d e F) : t.numel = a * b * c * d * e := by
  simp [Tensor.numel, h.1, Nat.mul_assoc]

/-! ### combined indices -/

theorem lt_pair {i j a b : Nat} (hi : i < a) (hj : j < b) : i * b + j < a * b := by
  calc i * b + j < i * b + b := by omega
    _ = (i + 1) * b := by ring
    _ ≤ a * b := Nat.mul_le_mul_right _ hi

theorem exists_pair {n a b : Nat} (h : n < a * b) : ∃ i j, i < a ∧ j < b ∧ n = i * b + j := by
  have hb : 0 < b := by
    rcases Nat.eq_zero_or_pos b with h0 | h0
    · simp [h0] at h
    · exact h0
  exact ⟨n / b, n % b, (Nat.div_lt_iff_lt_mul hb).2 h, Nat.mod_lt _ hb, by rw [Nat.mul_comm]; exact (Nat.div_add_mod n b).symm⟩

/-! ### movedim -/

/-- the permutation `p` of the dimensions of a tensor with entries `h` -/
macro "perm" t:term "," h:term "," p:term "," src:term "," dst:term : tactic => `(tactic| (
  have e : Tensor.movedim $t $src $dst = .ok (Tensor.permute $t $p) := by simp only [movedim, ($h).1]; rfl
  rw [e]
  refine Ret.ok ⟨by simp [permute, ($h).1], ?_⟩
  intros
  simp only [permute]
  rw [get_ofFn _ (by simp [($h).1, *])]
  simp [List.range_succ, List.idxOf, List.findIdx, List.findIdx.go]
  apply ($h).2 <;> assumption))

theorem movedim_2_swap {F : Nat → Nat → α} (h : N2 t a b F) :
    Ret (t.movedim [-1] [-2]) fun r => N2 r b a fun j i => F i j := by
  perm t, h, [1, 0], [-1], [-2]

theorem movedim_3_swap {F : Nat → Nat → Nat → α} (h : N3 t a b c F) :
    Ret (t.movedim [-1] [-2]) fun r => N3 r a c b fun i k j => F i j k := by
  perm t, h, [0, 2, 1], [-1], [-2]

theorem movedim_3_swap' {F : Nat → Nat → Nat → α} (h : N3 t a b c F) :
    Ret (t.movedim [-2] [-1]) fun r => N3 r a c b fun i k j => F i j k := by
  perm t, h, [0, 2, 1], [-2], [-1]

theorem movedim_3_12 {F : Nat → Nat → Nat → α} (h : N3 t a b c F) :
    Ret (t.movedim [1] [2]) fun r => N3 r a c b fun i k j => F i j k := by
  perm t, h, [0, 2, 1], [1], [2]

theorem movedim_4_01 {F : Nat → Nat → Nat → Nat → α} (h : N4 t a b c d F) :
    Ret (t.movedim [0] [1]) fun r => N4 r b a c d fun j i k l => F i j k l := by
  perm t, h, [1, 0, 2, 3], [0], [1]

theorem movedim_5_01 {F : Nat → Nat → Nat → Nat → Nat → α} (h : N5 t a b c d e F) :
    Ret (t.movedim [0] [1]) fun r => N5 r b a c d e fun j i k l m => F i j k l m := by
  perm t, h, [1, 0, 2, 3, 4], [0], [1]

theorem movedim_4_last {F : Nat → Nat → Nat → Nat → α} (h : N4 t a b c d F) :
    Ret (t.movedim [1, 2, 3] [-3, -2, -1]) fun r => N4 r a b c d F := by
  perm t, h, [0, 1, 2, 3], [1, 2, 3], [-3, -2, -1]

theorem movedim_5_last {F : Nat → Nat → Nat → Nat → Nat → α} (h : N5 t a b c d e F) :
    Ret (t.movedim [1, 2, 3] [-3, -2, -1]) fun r => N5 r a e b c d fun i m j k l => F i j k l m := by
  perm t, h, [0, 4, 1, 2, 3], [1, 2, 3], [-3, -2, -1]

theorem movedim_4_back {F : Nat → Nat → Nat → Nat → α} (h : N4 t a b c d F) :
    Ret (t.movedim [-3, -2, -1] [1, 2, 3]) fun r => N4 r a b c d F := by
  perm t, h, [0, 1, 2, 3], [-3, -2, -1], [1, 2, 3]

theorem movedim_5_back {F : Nat → Nat → Nat → Nat → Nat → α} (h : N5 t a b c d e F) :
    Ret (t.movedim [-3, -2, -1] [1, 2, 3]) fun r => N5 r a c d e b fun i k l m j => F i j k l m := by
  perm t, h, [0, 2, 3, 4, 1], [-3, -2, -1], [1, 2, 3]

theorem movedim_5_23 {F : Nat → Nat → Nat → Nat → Nat → α} (h : N5 t a b c d e F) :
    Ret (t.movedim [2] [3]) fun r => N5 r a b d c e fun i j l k m => F i j k l m := by
  perm t, h, [0, 1, 3, 2, 4], [2], [3]

theorem movedim_5_32 {F : Nat → Nat → Nat → Nat → Nat → α} (h : N5 t a b c d e F) :
    Ret (t.movedim [-2] [-3]) fun r => N5 r a b d c e fun i j l k m => F i j k l m := by
  perm t, h, [0, 1, 3, 2, 4], [-2], [-3]

/-! ### flip -/

/-- reversal of some dimensions -/
macro "flp" h:term : tactic => `(tactic| (
  simp only [Tensor.flip, ($h).1]
  refine Ret.ok ⟨by simp, ?_⟩
  intros
  rw [get_ofFn _ (by simp [*])]
  simp [List.range_succ, normDim]
  apply ($h).2 <;> omega))

theorem flip_4_hw {F : Nat → Nat → Nat → Nat → α} (h : N4 t a b c d F) :
    Ret (t.flip [-2, -1]) fun r => N4 r a b c d fun i j k l => F i j (c - 1 - k) (d - 1 - l) := by flp h

theorem flip_4_chw {F : Nat → Nat → Nat → Nat → α} (h : N4 t a b c d F) :
    Ret (t.flip [-3, -2, -1]) fun r => N4 r a b c d fun i j k l => F i (b - 1 - j) (c - 1 - k) (d - 1 - l) := by flp h

theorem flip_4_01 {F : Nat → Nat → Nat → Nat → α} (h : N4 t a b c d F) :
    Ret (t.flip [-4, -3]) fun r => N4 r a b c d fun i j k l => F (a - 1 - i) (b - 1 - j) k l := by flp h

theorem flip_5_23 {F : Nat → Nat → Nat → Nat → Nat → α} (h : N5 t a b c d e F) :
    Ret (t.flip [-3, -2]) fun r => N5 r a b c d e fun i j k l m => F i j (c - 1 - k) (d - 1 - l) m := by flp h

/-! ### reshape -/

theorem reshape_data {s : List Nat} (h : size s = t.numel) : Ret (t.reshape s) fun r => r.shape = s ∧ r.data = t.data := by
  simp only [Tensor.reshape, h, if_true]; exact Ret.ok ⟨rfl, rfl⟩

theorem reshapeInfer_data {pre post : List Nat} {q : Nat} (hp : 0 < size pre * size post) (h : t.numel = q * (size pre * size post)) :
    Ret (t.reshapeInfer pre post) fun r => r.shape = pre ++ q :: post ∧ r.data = t.data := by
  simp only [reshapeInfer, Nat.ne_of_gt hp, if_false, h, Nat.mul_mod_left, if_true, Nat.mul_div_cancel _ hp]
  exact Ret.ok ⟨rfl, rfl⟩

/-! ### slices, rows -/

theorem slice_4_0 {F : Nat → Nat → Nat → Nat → α} (h : N4 t a b c d F) {i : Nat} (hi : i < a) :
    Ret (t.slice 0 i (i + 1)) fun r => N4 r 1 b c d fun _ j k l => F i j k l := by
  simp only [slice, h.1, List.getElem?_cons_zero]
  have e1 : min i a = i := by omega
  have e2 : min (i + 1) a = i + 1 := by omega
  have e3 : i + 1 - i = 1 := by omega
  simp only [e1, e2, e3, List.set]
  refine Ret.ok ⟨rfl, fun i' j k l hi' hj hk hl => ?_⟩
  rw [get_ofFn _ (by simp; omega)]
  obtain rfl : i' = 0 := by omega
  simpa [List.set] using h.2 i j k l hi hj hk hl

theorem slice_4_1 {F : Nat → Nat → Nat → Nat → α} (h : N4 t a b c d F) {i : Nat} (hi : i < b) :
    Ret (t.slice 1 i (i + 1)) fun r => N4 r a 1 c d fun j _ k l => F j i k l := by
  simp only [slice, h.1, List.getElem?_cons_succ, List.getElem?_cons_zero]
  have e1 : min i b = i := by omega
  have e2 : min (i + 1) b = i + 1 := by omega
  have e3 : i + 1 - i = 1 := by omega
  simp only [e1, e2, e3, List.set]
  refine Ret.ok ⟨rfl, fun j i' k l hj hi' hk hl => ?_⟩
  rw [get_ofFn _ (by simp; omega)]
  obtain rfl : i' = 0 := by omega
  simpa [List.set] using h.2 j i k l hj hi hk hl

theorem slice_5_1 {F : Nat → Nat → Nat → Nat → Nat → α} (h : N5 t a b c d e F) {i : Nat} (hi : i < b) :
    Ret (t.slice 1 i (i + 1)) fun r => N5 r a 1 c d e fun j _ k l m => F j i k l m := by
  simp only [slice, h.1, List.getElem?_cons_succ, List.getElem?_cons_zero]
  have e1 : min i b = i := by omega
  have e2 : min (i + 1) b = i + 1 := by omega
  have e3 : i + 1 - i = 1 := by omega
  simp only [e1, e2, e3, List.set]
  refine Ret.ok ⟨rfl, fun j i' k l m hj hi' hk hl hm => ?_⟩
  rw [get_ofFn _ (by simp; omega)]
  obtain rfl : i' = 0 := by omega
  simpa [List.set] using h.2 j i k l m hj hi hk hl hm

theorem slice_3_0 {F : Nat → Nat → Nat → α} (h : N3 t a b c F) {i : Nat} (hi : i < a) :
    Ret (t.slice 0 i (i + 1)) fun r => N3 r 1 b c fun _ j k => F i j k := by
  simp only [slice, h.1, List.getElem?_cons_zero]
  have e1 : min i a = i := by omega
  have e2 : min (i + 1) a = i + 1 := by omega
  have e3 : i + 1 - i = 1 := by omega
  simp only [e1, e2, e3, List.set]
  refine Ret.ok ⟨rfl, fun i' j k hi' hj hk => ?_⟩
  rw [get_ofFn _ (by simp; omega)]
  obtain rfl : i' = 0 := by omega
  simpa [List.set] using h.2 i j k hi hj hk

/-- the entries of `t[i]` are those of `t` with `i` in front -/
theorem select0_ret {n i : Nat} {s : List Nat} (hs : t.shape = n :: s) (hi : i < n) :
    Ret (t.select0 i) fun r => r.shape = s ∧ ∀ k, r.data k = t.data (i * size s + k) := by
  simp only [select0, hs, hi, if_true]; exact Ret.ok ⟨rfl, fun _ => rfl⟩

/-- `t[i].unsqueeze(0)` -/
theorem selectUnsq_4 {F : Nat → Nat → Nat → Nat → α} (h : N4 t a b c d F) {i : Nat} (hi : i < a) :
    Ret (t.select0 i >>= fun r => r.unsqueeze 0) fun r => N4 r 1 b c d fun _ j k l => F i j k l := by
  refine (select0_ret h.1 hi).bind fun r hr => ?_
  simp only [unsqueeze, hr.1, List.length_cons, Nat.zero_le, if_true]
  refine Ret.ok (N4.of_data rfl fun i' j k l hi' hj hk hl => ?_)
  obtain rfl : i' = 0 := by omega
  show r.data _ = _
  rw [hr.2, ← h.data hi hj hk hl]
  congr 1
  simp only [size_cons, size_nil]; ring

theorem selectUnsq_5 {F : Nat → Nat → Nat → Nat → Nat → α} (h : N5 t a b c d e F) {i : Nat} (hi : i < a) :
    Ret (t.select0 i >>= fun r => r.unsqueeze 0) fun r => N5 r 1 b c d e fun _ j k l m => F i j k l m := by
  refine (select0_ret h.1 hi).bind fun r hr => ?_
  simp only [unsqueeze, hr.1, List.length_cons, Nat.zero_le, if_true]
  refine Ret.ok (N5.of_data rfl fun i' j k l m hi' hj hk hl hm => ?_)
  obtain rfl : i' = 0 := by omega
  show r.data _ = _
  rw [hr.2, ← h.data hi hj hk hl hm]
  congr 1
  simp only [size_cons, size_nil]; ring

theorem selectUnsq_3 {F : Nat → Nat → Nat → α} (h : N3 t a b c F) {i : Nat} (hi : i < a) :
    Ret (t.select0 i >>= fun r => r.unsqueeze 0) fun r => N3 r 1 b c fun _ j k => F i j k := by
  refine (select0_ret h.1 hi).bind fun r hr => ?_
  simp only [unsqueeze, hr.1, List.length_cons, Nat.zero_le, if_true]
  refine Ret.ok (N3.of_data rfl fun i' j k hi' hj hk => ?_)
  obtain rfl : i' = 0 := by omega
  show r.data _ = _
  rw [hr.2, ← h.data hi hj hk]
  congr 1
  simp only [size_cons, size_nil]; ring

end

/-! ### batching -/

/-- `functorch.vmap` over the leading dimension: sample by sample -/
theorem vmap2_spec {β γ : Type} {f : Tensor α → Tensor β → Res (Tensor γ)} {x : Tensor α} {y : Tensor β} {n : Nat}
    {s1 s2 s : List Nat} {G : Nat → Nat → γ} (hn : 0 < n) (hx : x.shape = n :: s1) (hy : y.shape = n :: s2)
    (h : ∀ i, i < n → Ret (x.select0 i >>= fun a => y.select0 i >>= fun b => f a b) fun r => r.shape = s ∧ ∀ k, k < size s → r.data k = G i k) :
    Ret (vmap2 f x y) fun r => r.shape = n :: s ∧ ∀ i k, i < n → k < size s → r.data (i * size s + k) = G i k := by
  have key : ∀ m, m ≤ n → ∃ L : List (Tensor γ), L.length = m ∧
      ((List.range m).mapM fun i => do
        let ai ← x.select0 i
        let bi ← y.select0 i
        f ai bi : Res _) = .ok L ∧
      ∀ i (hi : i < L.length), L[i].shape = s ∧ ∀ k, k < size s → L[i].data k = G i k := by
    intro m
    induction m with
    | zero => exact fun _ => ⟨[], rfl, rfl, fun i hi => absurd hi (Nat.not_lt_zero _)⟩
    | succ m ih =>
      intro hm
      obtain ⟨L, hl, hL, hL'⟩ := ih (by omega)
      obtain ⟨r, hr, hr'⟩ := h m (by omega)
      refine ⟨L ++ [r], by simp [hl], ?_, ?_⟩
      · rw [List.range_succ, List.mapM_append, hL]
        simp only [List.mapM_cons, List.mapM_nil]
        erw [hr]
        rfl
      · intro i hi
        simp only [List.length_append, List.length_cons, List.length_nil] at hi
        by_cases h' : i < L.length
        · rw [List.getElem_append_left h']; exact hL' i h'
        · have : i = L.length := by omega
          subst this
          simp only [List.getElem_append_right (Nat.le_refl _), Nat.sub_self, List.getElem_cons_zero]
          rw [hl]; exact hr'
  obtain ⟨L, hl, hL, hL'⟩ := key n (Nat.le_refl _)
  have e1 : x.dim 0 = .ok n := by simp [Tensor.dim, hx]
  have e2 : y.dim 0 = .ok n := by simp [Tensor.dim, hy]
  simp only [vmap2, e1, e2, Res.bind_ok, if_true]
  rw [hL]
  simp only [Res.bind_ok]
  cases L with
  | nil => simp at hl; omega
  | cons t ts =>
    have h0 := hL' 0 (by simp)
    have hall : (ts.all fun u => decide (u.shape = t.shape)) = true := by
      simp only [List.all_eq_true, decide_eq_true_eq]
      intro u hu
      obtain ⟨i, hi, rfl⟩ := List.getElem_of_mem hu
      have := (hL' (i + 1) (by simp; omega)).1
      simp only [List.getElem_cons_succ] at this
      rw [this]
      exact h0.1.symm
    simp only [stack0, hall, if_true]
    have hts : t.shape = s := h0.1
    refine Ret.ok ⟨by rw [hts, hl], fun i k hi hk => ?_⟩
    have hi' : i < (t :: ts).length := by omega
    have hpos : 0 < size s := by omega
    show ((t :: ts)[(i * size s + k) / size t.shape]?.getD t).data ((i * size s + k) % size t.shape) = _
    rw [hts]
    have ed : (i * size s + k) / size s = i := by
      rw [Nat.mul_comm, Nat.mul_add_div hpos, Nat.div_eq_of_lt hk, Nat.add_zero]
    have em : (i * size s + k) % size s = k := by
      rw [Nat.mul_comm, Nat.mul_add_mod, Nat.mod_eq_of_lt hk]
    rw [ed, em, List.getElem?_eq_getElem hi', Option.getD_some]
    exact (hL' i hi').2 k hk

end NNJ
