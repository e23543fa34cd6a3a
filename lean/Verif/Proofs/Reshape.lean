import Verif.Proofs.LeafDiag

/-! The sizes `torch.Tensor.reshape` accepts. -/

namespace NNJ
open Tensor

theorem cast_toNat (l : List Int) (h : ∀ e ∈ l, 0 ≤ e) : (l.map Int.toNat).map (Nat.cast : Nat → Int) = l := by
  induction l with
  | nil => rfl
  | cons a l ih => simp only [List.map_cons, List.mem_cons, forall_eq_or_imp] at *; rw [ih h.2, Int.toNat_of_nonneg h.1]

theorem nonneg_or_split (z : List Int) : (∀ e ∈ z, 0 ≤ e) ∨ ∃ pre d post, z = pre ++ d :: post ∧ (∀ e ∈ pre, (0:Int) ≤ e) ∧ d < 0 := by
  induction z with
  | nil => left; simp
  | cons a z ih =>
    by_cases ha : 0 ≤ a
    · obtain h | ⟨pre, d, post, rfl, hp, hd⟩ := ih
      · left; simp [ha]; exact h
      · right; exact ⟨a :: pre, d, post, rfl, by simp [ha]; exact hp, hd⟩
    · right; exact ⟨[], a, z, rfl, by simp, by omega⟩

theorem openShape_nonneg {z : List Int} {dims : List Nat} (h : OpenShape z dims) {e : Int} (he : e ∈ z) : 0 ≤ e ∨ e = -1 := by
  obtain rfl | ⟨pre, a, post, rfl, rfl⟩ := h
  · obtain ⟨x, -, rfl⟩ := List.mem_map.1 he; left; simp
  · rw [List.mem_append, List.mem_cons] at he
    obtain he | he | he := he
    · obtain ⟨x, -, rfl⟩ := List.mem_map.1 he; left; simp
    · exact Or.inr he
    · obtain ⟨x, -, rfl⟩ := List.mem_map.1 he; left; simp

theorem openShape_count {z : List Int} {dims : List Nat} (h : OpenShape z dims) : z.count (-1) ≤ 1 := by
  have h0 : ∀ l : List Nat, (l.map (Nat.cast : Nat → Int)).count (-1) = 0 := fun l => by
    rw [List.count_eq_zero]
    intro hm
    obtain ⟨x, -, hx⟩ := List.mem_map.1 hm
    omega
  obtain rfl | ⟨pre, a, post, rfl, rfl⟩ := h
  · rw [h0]; omega
  · rw [List.count_append, List.count_cons_self, h0, h0]

theorem openShape_cases (z : List Int) :
    (∃ l : List Nat, z = l.map (↑)) ∨ (∃ pre post : List Nat, z = pre.map (↑) ++ -1 :: post.map (↑)) ∨
      (¬ ∃ dims, OpenShape z dims) ∧ ∀ (b : Nat) (t : Tensor ℝ), t.reshapeOpen (b :: z) = .error .shape := by
  obtain h | ⟨pre, d, post, rfl, hp, hd⟩ := nonneg_or_split z
  · exact Or.inl ⟨_, (cast_toNat z h).symm⟩
  · right
    obtain ⟨q, rfl⟩ : ∃ q : List Nat, pre = q.map (↑) := ⟨_, (cast_toNat pre hp).symm⟩
    by_cases hc : d = -1 ∧ ∀ e ∈ post, 0 ≤ e
    · obtain ⟨rfl, hc⟩ := hc
      exact Or.inl ⟨q, post.map Int.toNat, by rw [cast_toNat post hc]⟩
    · right
      refine ⟨fun ⟨dims, h⟩ => hc ?_, fun b t => ?_⟩
      · have hd' : d = -1 := (openShape_nonneg h (e := d) (by simp)).resolve_left (by omega)
        refine ⟨hd', fun e he => (openShape_nonneg h (e := e) (by simp [he])).resolve_right fun h1 => ?_⟩
        have h2 := openShape_count h
        rw [List.count_append, hd', List.count_cons_self] at h2
        have : 0 < post.count (-1) := List.count_pos_iff.2 (h1 ▸ he)
        omega
      · have h1 := takeWhile_nat (b :: q) (d :: post)
        have h2 := dropWhile_nat (b :: q) (d :: post)
        rw [List.dropWhile_cons_of_neg (by simpa using hd)] at h2
        rw [List.map_cons, List.cons_append] at h2
        simp only [reshapeOpen, h2]
        exact if_neg hc

/-- `reshape` with the batch size followed by `z`. -/
theorem reshapeOpen_iff {t y : Tensor ℝ} {b : Nat} {s : List Nat} {z : List Int} (ht : t.shape = b :: s) (h0 : 0 < t.numel) :
    t.reshapeOpen (b :: z) = .ok y ↔ ∃ dims, OpenShape z dims ∧ size dims = size s ∧ y = ⟨b :: dims, t.data⟩ := by
  have hN : t.numel = b * size s := by simp [Tensor.numel, ht]
  have hb : 0 < b := Nat.pos_of_ne_zero fun h => by rw [hN, h, zero_mul] at h0; omega
  have hs : 0 < size s := Nat.pos_of_ne_zero fun h => by rw [hN, h, mul_zero] at h0; omega
  constructor
  · obtain ⟨l, rfl⟩ | ⟨pre, post, rfl⟩ | ⟨-, h⟩ := openShape_cases z
    · rw [← List.map_cons (f := (Nat.cast : Nat → Int)), reshapeOpen_nat, Tensor.reshape]
      split
      · rename_i h
        intro hy
        rw [hN, size_cons] at h
        exact ⟨l, Or.inl rfl, Nat.eq_of_mul_eq_mul_left hb (by omega), (Except.ok.inj hy).symm⟩
      · exact fun hy => nomatch hy
    · rw [← List.cons_append, ← List.map_cons (f := (Nat.cast : Nat → Int)), reshapeOpen_infer, reshapeInfer]
      split
      · exact fun hy => nomatch hy
      · split
        · rename_i h1 h2
          intro hy
          refine ⟨pre ++ (t.numel / (size (b :: pre) * size post)) :: post, Or.inr ⟨pre, _, post, rfl, rfl⟩, ?_, (Except.ok.inj hy).symm⟩
          obtain ⟨a, ha⟩ := Nat.dvd_of_mod_eq_zero h2
          rw [ha, Nat.mul_div_cancel_left _ (Nat.pos_of_ne_zero h1), size_append, size_cons]
          refine Nat.eq_of_mul_eq_mul_left hb ?_
          rw [← hN, ha, size_cons]
          ring
        · exact fun hy => nomatch hy
    · rw [h]; exact fun hy => nomatch hy
  · rintro ⟨dims, hz, hd, rfl⟩
    obtain rfl | ⟨pre, a, post, rfl, rfl⟩ := hz
    · rw [← List.map_cons (f := (Nat.cast : Nat → Int)), reshapeOpen_nat, Tensor.reshape]
      exact if_pos (by rw [size_cons, hd, hN])
    · rw [← List.cons_append, ← List.map_cons (f := (Nat.cast : Nat → Int)), reshapeOpen_infer]
      have e : size (pre ++ a :: post) = size pre * size post * a := by
        rw [size_append, size_cons]; ring
      have hp : 0 < size pre * size post := Nat.pos_of_ne_zero fun h => by rw [e, h, zero_mul] at hd; omega
      have hk : size (b :: pre) * size post = b * (size pre * size post) := by rw [size_cons]; ring
      have hN' : t.numel = b * (size pre * size post) * a := by rw [hN, ← hd, e]; ring
      have hp' : 0 < b * (size pre * size post) := Nat.mul_pos hb hp
      simp only [reshapeInfer, hk, hN', Nat.ne_of_gt hp', if_false, Nat.mul_mod_right, if_true, Nat.mul_div_cancel_left _ hp']
      rfl

theorem reshapeOpen_error {t : Tensor ℝ} {z : List Int} {e : Err} (h : t.reshapeOpen z = .error e) : e = .shape := by
  have h1 : ∀ l, t.reshape l = .error e → e = .shape := fun l h => by
    rw [Tensor.reshape] at h; split at h
    · exact nomatch h
    · exact (Except.error.inj h).symm
  rw [reshapeOpen] at h
  split at h
  · exact h1 _ h
  · split at h
    · rw [reshapeInfer] at h
      split at h
      · exact (Except.error.inj h).symm
      · split at h
        · exact nomatch h
        · exact (Except.error.inj h).symm
    · exact (Except.error.inj h).symm

end NNJ
