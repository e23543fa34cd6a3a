import Verif.Proofs.UpFrac

/-!
# C43: Upsample with a scale factor that is not an integer
-/

namespace NNJ
namespace Props
open Tensor Matrix Prog

section
variable {num den c h w B : Nat} {x : Tensor ℝ} {X : Fin B → Fin (c * h * w) → ℝ} (id : Nat) (st : Store ℝ)

/-- C43: for every scale factor `num / den ≥ 1`, forward returns images of `⌊h · num / den⌋ × ⌊w · num / den⌋`
pixels, the pixel in row `r` and column `s` being a copy of the one in row `⌊r · den / num⌋` and column
`⌊s · den / num⌋`; so its derivative is the matrix that selects these pixels. -/
theorem C43_forward (hd : 0 < den) (hn : den ≤ num) (hh : 0 < h) (hw : 0 < w) (hx : IsBatch x B [c, h, w] (c * h * w) X) :
    (∃ y Y, Returns ((Upsample.mod ⟨num, den⟩ id).forward x) st y ∧
      IsBatch y B [c, upLen num den h, upLen num den w] (c * upLen num den h * upLen num den w) Y ∧
      ∀ b (a : Fin c) (r : Fin (upLen num den h)) (s : Fin (upLen num den w)),
        ∃ (r' : Fin h) (s' : Fin w), (r' : Nat) = r * den / num ∧ (s' : Nat) = s * den / num ∧ Y b (pix a r s) = X b (pix a r' s')) ∧
    ∀ z : Fin (c * h * w) → ℝ, ∃ D : Matrix (Fin (c * upLen num den h * upLen num den w)) (Fin (c * h * w)) ℝ,
      HasFDerivAt (forwardMap (Upsample.mod ⟨num, den⟩ id) st [c, h, w]) (linMap D) z ∧
      ∀ (a : Fin c) (r : Fin (upLen num den h)) (s : Fin (upLen num den w)) (a' : Fin c) (r' : Fin h) (s' : Fin w),
        D (pix a r s) (pix a' r' s') = if a = a' ∧ r * den / num = r' ∧ s * den / num = s' then 1 else 0 := by
  constructor
  · obtain ⟨y, hy1, hy⟩ := Upsample.forward_specQ hd hn hh hw hx
    refine ⟨y, _, hy1, hy, fun b a r s => ⟨upPos hd r, upPos hd s, rfl, rfl, ?_⟩⟩
    simp only [upSrcQ, chan_pix, row_pix, col_pix]
  · intro z
    refine ⟨Upsample.qJ hd, ?_, fun a r s a' r' s' => ?_⟩
    · exact Upsample.forwardMapQ (num := num) (c := c) hd hn hh hw id st ▸ Upsample.derivQ hd z
    · simp only [Upsample.qJ, upSrcQ, chan_pix, row_pix, col_pix, pix_inj]
      refine if_congr ?_ rfl rfl
      rw [Fin.ext_iff (a := r'), Fin.ext_iff (a := s')]
      exact ⟨fun ⟨p, q, r⟩ => ⟨p.symm, q.symm, r.symm⟩, fun ⟨p, q, r⟩ => ⟨p.symm, q.symm, r.symm⟩⟩

/-- C43: reverse mode uses `int(scale_factor)`.  `vjp` multiplies with the derivative of forward, for all
vectors, exactly when the factor is an integer or the images consist of one pixel. -/
theorem C43_vjp_iff (hB : 0 < B) (hc : 0 < c) (hd : 0 < den) (hn : den ≤ num) (hh : 0 < h) (hw : 0 < w)
    (hx : IsBatch x B [c, h, w] (c * h * w) X) {D : Fin B → Matrix (Fin (c * upLen num den h * upLen num den w)) (Fin (c * h * w)) ℝ}
    (hD : ∀ b, HasFDerivAt (forwardMap (Upsample.mod ⟨num, den⟩ id) st [c, h, w]) (linMap (D b)) (X b)) :
    (∀ v V, IsVec v B (c * upLen num den h * upLen num den w) V →
      ∃ t, Returns ((Upsample.mod ⟨num, den⟩ id).vjp x none v .input) st (some t) ∧ IsVec t B (c * h * w) fun b => V b ᵥ* D b) ↔
    (den ∣ num ∨ (h = 1 ∧ w = 1)) := by
  have hDq : ∀ b, D b = Upsample.qJ (num := num) hd := fun b =>
    linMap_unique (hD b) (Upsample.forwardMapQ (num := num) (c := c) hd hn hh hw id st ▸ Upsample.derivQ hd (X b))
  constructor
  · intro H
    by_contra hne
    by_cases hf : Upsample.Fits num den h ∧ Upsample.Fits num den w
    · refine Upsample.qP_ne (hd := hd) hc hh hw hn hne ?_
      funext k m
      let V : Fin B → Fin (c * upLen num den h * upLen num den w) → ℝ := fun _ i => if i = k then 1 else 0
      let v : Tensor ℝ := ofFn [B, c * upLen num den h * upLen num den w] fun idx => if idx.getD 1 0 = k then 1 else 0
      have hv : IsVec v B (c * upLen num den h * upLen num den w) V := ⟨rfl, fun b i => by
        rw [get_ofFn _ (by simp)]
        simp [V, Fin.ext_iff]⟩
      obtain ⟨t, ht, hT⟩ := H v V hv
      obtain ⟨t', ht', hT'⟩ := (Upsample.vjp_fits hd hn hh hw hf.1 hf.2 hx hv)
      have e : Except.ok (some t) = Except.ok t' := Eq.trans (Eq.symm ht) ht'
      cases e
      have hT' : IsVec t B (c * h * w) fun b => V b ᵥ* Upsample.qP := hT'
      have e1 := (hT'.2 ⟨0, hB⟩ m).symm.trans (hT.2 ⟨0, hB⟩ m)
      have e2 : ∀ A : Matrix (Fin (c * upLen num den h * upLen num den w)) (Fin (c * h * w)) ℝ, (V ⟨0, hB⟩ ᵥ* A) m = A k m := fun A => by
        simp [vecMul, dotProduct, V]
      simp only [hDq] at e1
      exact (e2 _).symm.trans (e1.trans (e2 _))
    · have hv : IsVec (ones [B, c * upLen num den h * upLen num den w] : Tensor ℝ) B (c * upLen num den h * upLen num den w) fun _ _ => 1 :=
        ⟨rfl, fun _ _ => rfl⟩
      obtain ⟨t, ht, -⟩ := H _ _ hv
      obtain ⟨e, he⟩ := Upsample.vjp_misfit hd hn hB hc hh hw hf hx hv
      have : Except.ok (some t) = Except.error e := Eq.trans (Eq.symm ht) he
      cases this
  · intro h1 v V hv
    have hf : Upsample.Fits num den h ∧ Upsample.Fits num den w := by
      rcases h1 with h1 | ⟨rfl, rfl⟩
      · exact ⟨Upsample.fits_dvd hd hn h1, Upsample.fits_dvd hd hn h1⟩
      · exact ⟨Upsample.fits_one hd hn, Upsample.fits_one hd hn⟩
    obtain ⟨t, ht, hT⟩ := Upsample.vjp_fits hd hn hh hw hf.1 hf.2 hx hv
    cases t with
    | none => exact hT.elim
    | some t =>
      refine ⟨t, ht, IsVec.congr hT fun b i => ?_⟩
      rw [hDq, Upsample.qP_eq (hd := hd) h1]

/-- C43: the same for `jacobian`. -/
theorem C43_jacobian_iff (hB : 0 < B) (hc : 0 < c) (hd : 0 < den) (hn : den ≤ num) (hh : 0 < h) (hw : 0 < w)
    (hx : IsBatch x B [c, h, w] (c * h * w) X) {D : Fin B → Matrix (Fin (c * upLen num den h * upLen num den w)) (Fin (c * h * w)) ℝ}
    (hD : ∀ b, HasFDerivAt (forwardMap (Upsample.mod ⟨num, den⟩ id) st [c, h, w]) (linMap (D b)) (X b)) :
    (∃ t, Returns ((Upsample.mod ⟨num, den⟩ id).jacobian x none .input) st (some t) ∧
      IsMat t B (c * upLen num den h * upLen num den w) (c * h * w) D) ↔
    (den ∣ num ∨ (h = 1 ∧ w = 1)) := by
  have hDq : ∀ b, D b = Upsample.qJ (num := num) hd := fun b =>
    linMap_unique (hD b) (Upsample.forwardMapQ (num := num) (c := c) hd hn hh hw id st ▸ Upsample.derivQ hd (X b))
  obtain ⟨y, M, hy, hM, e⟩ := Upsample.jac_eq (num := num) hd hn hh hw hx
  have hval : ∀ y' ∈ some y, y'.shape = [B, c, upLen num den h, upLen num den w] := by simpa using hy.1
  have hk : ∀ {g : Nat}, 0 < g → 0 < upLen num den g := fun hg =>
    lt_of_lt_of_le (Nat.mul_pos hg (Upsample.int_pos hd hn)) (Upsample.le_upLen hd)
  constructor
  · rintro ⟨t, ht, hT⟩
    by_contra hne
    by_cases hf : Upsample.Fits num den h ∧ Upsample.Fits num den w
    · refine Upsample.qP_ne (hd := hd) hc hh hw hn hne ?_
      obtain ⟨t', ht', hT'⟩ := Upsample.mjp_fits hd hn hh hw hf.1 hf.2 hx hM hval
      have e' : Except.ok (some t) = Except.ok t' := Eq.trans (Eq.symm ht) (e.trans ht')
      cases e'
      have hT' : IsMat t B (c * upLen num den h * upLen num den w) (c * h * w) fun b => (1 : Matrix (Fin (c * upLen num den h * upLen num den w)) _ ℝ) * Upsample.qP := hT'
      funext k m
      have e1 := (hT'.2 ⟨0, hB⟩ k m).symm.trans (hT.2 ⟨0, hB⟩ k m)
      rwa [hDq, Matrix.one_mul] at e1
    · obtain ⟨e', he⟩ := Upsample.mjp_misfit hd hn hB hc hh hw (Nat.mul_pos (Nat.mul_pos hc (hk hh)) (hk hw)) hf hx hM hval
      have : Except.ok (some t) = Except.error e' := Eq.trans (Eq.symm ht) (e.trans he)
      cases this
  · intro h1
    have hf : Upsample.Fits num den h ∧ Upsample.Fits num den w := by
      rcases h1 with h1 | ⟨rfl, rfl⟩
      · exact ⟨Upsample.fits_dvd hd hn h1, Upsample.fits_dvd hd hn h1⟩
      · exact ⟨Upsample.fits_one hd hn, Upsample.fits_one hd hn⟩
    obtain ⟨t, ht, hT⟩ := Upsample.mjp_fits hd hn hh hw hf.1 hf.2 hx hM hval
    cases t with
    | none => exact hT.elim
    | some t =>
      refine ⟨t, e.trans ht, IsMat.congr hT fun b i j => ?_⟩
      rw [hDq, Upsample.qP_eq (hd := hd) h1, Matrix.one_mul]

/-- C43: what happens for the other factors.  `vjp` raises unless both enlarged sides contain exactly `h` resp. `w` whole
squares of `int(num / den)` pixels; otherwise it returns, without any exception, the sums over these squares. -/
theorem C43_vjp_value (hB : 0 < B) (hc : 0 < c) (hd : 0 < den) (hn : den ≤ num) (hh : 0 < h) (hw : 0 < w)
    (hx : IsBatch x B [c, h, w] (c * h * w) X) {v : Tensor ℝ} {V : Fin B → Fin (c * upLen num den h * upLen num den w) → ℝ}
    (hv : IsVec v B (c * upLen num den h * upLen num den w) V) :
    (¬ (upLen num den h / (num / den) = h ∧ upLen num den w / (num / den) = w) →
      ∃ e, ((Upsample.mod ⟨num, den⟩ id).vjp x none v .input st).1 = .error e) ∧
    (upLen num den h / (num / den) = h ∧ upLen num den w / (num / den) = w →
      ∃ t G, Returns ((Upsample.mod ⟨num, den⟩ id).vjp x none v .input) st (some t) ∧ IsVec t B (c * h * w) G ∧
        ∀ b (a : Fin c) (r : Fin h) (s : Fin w), G b (pix a r s)
          = ∑ i : Fin (upLen num den h), ∑ j : Fin (upLen num den w),
            if (i : Nat) / (num / den) = r ∧ (j : Nat) / (num / den) = s then V b (pix a i j) else 0) := by
  constructor
  · intro hf
    exact Upsample.vjp_misfit hd hn hB hc hh hw hf hx hv
  · rintro ⟨h1, h2⟩
    obtain ⟨t, ht, hT⟩ := Upsample.vjp_fits hd hn hh hw h1 h2 hx hv
    cases t with
    | none => exact hT.elim
    | some t =>
      refine ⟨t, _, ht, hT, fun b a r s => ?_⟩
      simp only [vecMul, dotProduct]
      rw [sum_pix, Finset.sum_eq_single a]
      · refine Finset.sum_congr rfl fun i _ => Finset.sum_congr rfl fun j _ => ?_
        simp [Upsample.qP]
      · intro a' _ ha'
        exact Finset.sum_eq_zero fun i _ => Finset.sum_eq_zero fun j _ => by simp [Upsample.qP, ha']
      · simp

end

/-- C43: with a factor below 1 every product with respect to the input raises, whatever the arguments. -/
theorem C43_small {num den : Nat} (hs : num < den) (id : Nat) (x : Tensor ℝ) (val : Option (Tensor ℝ)) :
    Raises ((Upsample.mod ⟨num, den⟩ id).jacobian x val .input) ∧
    (∀ v, Raises ((Upsample.mod ⟨num, den⟩ id).vjp x val v .input)) ∧
    (∀ M, Raises ((Upsample.mod ⟨num, den⟩ id).mjp x val M .input)) ∧
    (∀ v, Raises ((Upsample.mod ⟨num, den⟩ id).jvp x val v .input)) ∧
    (∀ M, Raises ((Upsample.mod ⟨num, den⟩ id).jmp x val M .input)) ∧
    (∀ M fd td db, Raises ((Upsample.mod ⟨num, den⟩ id).jmjTp x val M .input fd td db)) ∧
    (∀ M fd td db, Raises ((Upsample.mod ⟨num, den⟩ id).jTmjp x val M .input fd td db)) := by
  have hi : Upsample.Scale.int ⟨num, den⟩ = 0 := Nat.div_eq_of_lt hs
  have hp : ∀ (t : Tensor ℝ) rows h2 w2, Upsample.Fails (Upsample.pool ⟨num, den⟩ t rows h2 w2) := by
    intro t rows h2 w2
    simp only [Upsample.pool, hi]
    unfold Tensor.reshape
    split_ifs
    · exact ⟨_, by simp [Torch.conv2d]; rfl⟩
    · exact ⟨_, rfl⟩
  have hfull : ∀ b c2 h1 w1 h2 w2 (t : Tensor ℝ), Upsample.Fails (Upsample.jTmjpFull ⟨num, den⟩ b c2 h1 w1 h2 w2 t) := fun b c2 h1 w1 h2 w2 t =>
    .right _ fun _ => .right _ fun _ => .left (hp _ _ _ _)
  have hm : ∀ val M, Upsample.Fails (Upsample.mjpSome ⟨num, den⟩ x val M .input) := fun val M =>
    .right _ fun _ => .right _ fun _ => .right _ fun _ => .right _ fun _ => .right _ fun _ => .right _ fun _ => .right _ fun _ => .right _ fun _ =>
      .left (hp _ _ _ _)
  have hj : Upsample.Fails (Upsample.jacobian ⟨num, den⟩ x val .input) :=
    .right _ fun _ => .right _ fun _ => .right _ fun _ => .right _ fun _ => .right _ fun _ => hm _ _
  have lift : ∀ {β : Type} {p : Res β}, Upsample.Fails p → Raises (fun s : Store ℝ => (p, s)) := by
    rintro β p ⟨e, rfl⟩ s
    exact ⟨e, s, rfl⟩
  refine ⟨lift hj, fun v => lift ?_, fun M => lift ?_, fun v => lift ⟨_, rfl⟩, fun M => lift ?_, fun M fd td db => lift ?_,
    fun M fd td db => lift ?_⟩
  · exact .right _ fun _ => .right _ fun _ => .right _ fun _ => .right _ fun _ => .right _ fun _ => .left (hp _ _ _ _)
  · cases M with
    | none => exact hj
    | some M => exact hm _ _
  · cases M with
    | none => exact hj
    | some M => exact ⟨_, rfl⟩
  · exact .right _ fun _ => .right _ fun _ => ⟨_, rfl⟩
  · refine .left ?_
    cases M with
    | none =>
      refine .right _ fun _ => .right _ fun _ => .right _ fun _ => .right _ fun _ => .right _ fun _ => .right _ fun q => ?_
      obtain ⟨m, fd⟩ := q
      cases fd <;> cases td <;> refine .right _ fun _ => ?_
      · exact .map (hfull _ _ _ _ _ _ _)
      · exact .left (hfull _ _ _ _ _ _ _)
      · exact .right _ fun _ => .map (hfull _ _ _ _ _ _ _)
      · exact .left (hp _ _ _ _)
    | some m =>
      refine .right _ fun _ => .right _ fun _ => .right _ fun _ => .right _ fun _ => .right _ fun q => ?_
      obtain ⟨m, fd⟩ := q
      cases fd <;> cases td <;> refine .right _ fun _ => ?_
      · exact .map (hfull _ _ _ _ _ _ _)
      · exact .left (hfull _ _ _ _ _ _ _)
      · exact .right _ fun _ => .map (hfull _ _ _ _ _ _ _)
      · exact .left (hp _ _ _ _)

/-- the hypotheses of C43 hold for a batch of two 2 x 2 images and the factor 5/2 (forward gives 5 x 5 images, whose sides contain two whole
squares of 2 x 2 pixels each), so `vjp` returns the sums over these squares and not the product with the derivative -/
example (id : Nat) (st : Store ℝ) :
    (∃ D, (∀ z, HasFDerivAt (forwardMap (Upsample.mod ⟨5, 2⟩ id) st [1, 2, 2]) (linMap D) z) ∧
      ¬ ∀ v V, IsVec v 2 (1 * upLen 5 2 2 * upLen 5 2 2) V →
        ∃ t, Returns ((Upsample.mod ⟨5, 2⟩ id).vjp (ones [2, 1, 2, 2]) none v .input) st (some t) ∧
          IsVec t 2 (1 * 2 * 2) fun b => V b ᵥ* D) ∧
    ∃ t G, Returns ((Upsample.mod ⟨5, 2⟩ id).vjp (ones [2, 1, 2, 2]) none (ones [2, 1 * upLen 5 2 2 * upLen 5 2 2]) .input) st (some t) ∧
      IsVec t 2 (1 * 2 * 2) G ∧ G 0 (pix 0 0 0) = 4 := by
  have hx : IsBatch (ones [2, 1, 2, 2] : Tensor ℝ) 2 [1, 2, 2] (1 * 2 * 2) fun _ _ => 1 := ⟨rfl, fun _ _ => rfl⟩
  have hv : IsVec (ones [2, 1 * upLen 5 2 2 * upLen 5 2 2] : Tensor ℝ) 2 (1 * upLen 5 2 2 * upLen 5 2 2) fun _ _ => 1 := ⟨rfl, fun _ _ => rfl⟩
  constructor
  · refine ⟨Upsample.qJ (num := 5) (den := 2) (by norm_num), fun z => ?_, fun H => ?_⟩
    · exact Upsample.forwardMapQ (num := 5) (den := 2) (c := 1) (h := 2) (w := 2) (by norm_num) (by norm_num) (by norm_num) (by norm_num) id st ▸
        Upsample.derivQ (by norm_num) z
    · have := (C43_vjp_iff id st (by norm_num) (by norm_num) (by norm_num) (by norm_num) (by norm_num) (by norm_num) hx
        (fun b => Upsample.forwardMapQ (num := 5) (den := 2) (c := 1) (h := 2) (w := 2) (by norm_num) (by norm_num) (by norm_num) (by norm_num) id st ▸
        Upsample.derivQ (by norm_num) _)).1 H
      omega
  · obtain ⟨t, G, ht, hT, hG⟩ := (C43_vjp_value id st (by norm_num) (by norm_num) (by norm_num) (by norm_num) (by norm_num) (by norm_num) hx hv).2 (by decide)
    refine ⟨t, G, ht, hT, ?_⟩
    rw [hG]
    have e : (∑ i : Fin (upLen 5 2 2), ∑ j : Fin (upLen 5 2 2), if (i : Nat) / (5 / 2) = (0 : Fin 2) ∧ (j : Nat) / (5 / 2) = (0 : Fin 2) then 1 else 0) = 4 := by
      decide
    rw [← Nat.cast_ofNat (R := ℝ) (n := 4), ← e]
    push_cast
    rfl

end Props
end NNJ
