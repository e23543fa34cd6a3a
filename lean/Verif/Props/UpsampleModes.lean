import Verif.Proofs.UpModes

/-!
# C58: the other constructor arguments of Upsample

`nnj.Upsample` accepts all arguments of `nn.Upsample`, but its products are written for `mode="nearest"` and one scale factor.
-/

namespace NNJ
namespace Props
open Tensor Matrix Prog

variable {num den c h w B : Nat} {x : Tensor ℝ} {X : Fin B → Fin (c * h * w) → ℝ} (id : Nat) (st : Store ℝ)

/-- With a single scale factor and the default mode the object is the one of the other properties. -/
theorem C58_default (f : Upsample.Scale) : (Upsample.Options.mod { scale := .scalar f } id : Mod ℝ) = Upsample.mod f id := by
  rw [Upsample.Options.mod, Upsample.forward_default]
  rfl

/-- The products know nothing of the mode.  Whatever the inherited forward pass computes, with `val` given they are those of nearest-neighbour
enlargement by the same factor; with `val=None` too, as soon as the two forward passes return tensors of the same shape. -/
theorem C58_mode (f : Upsample.Scale) (fwd : Tensor ℝ → Res (Tensor ℝ)) (val : Option (Tensor ℝ))
    (hval : val = none → ∃ y y', fwd x = .ok y ∧ Returns ((Upsample.mod f id).forward x) st y' ∧ y.shape = y'.shape) :
    (∀ wrt, (Upsample.anyMod fwd (.ok f) id).jacobian x val wrt = (Upsample.mod f id).jacobian x val wrt) ∧
    (∀ v wrt, (Upsample.anyMod fwd (.ok f) id).vjp x val v wrt = (Upsample.mod f id).vjp x val v wrt) ∧
    (∀ M wrt, (Upsample.anyMod fwd (.ok f) id).mjp x val M wrt = (Upsample.mod f id).mjp x val M wrt) ∧
    (∀ M wrt fd td db, (Upsample.anyMod fwd (.ok f) id).jTmjp x val M wrt fd td db = (Upsample.mod f id).jTmjp x val M wrt fd td db) := by
  cases val with
  | some y => exact ⟨fun wrt => by cases wrt <;> rfl, fun v wrt => by cases wrt <;> rfl, fun M wrt => by cases M <;> cases wrt <;> rfl, fun M wrt fd td db => rfl⟩
  | none =>
    obtain ⟨y, y', e, e', hs⟩ := hval rfl
    have e' : Upsample.forward f x = .ok y' := e'
    have hJ : ∀ wrt, Upsample.anyJacobian fwd (.ok f) x none wrt = Upsample.jacobian f x none wrt := fun wrt =>
      (Upsample.anyJacobian_congr e e' hs wrt).trans (by cases wrt <;> rfl)
    refine ⟨fun wrt => funext fun s => Prod.ext (hJ wrt) rfl, fun v wrt => funext fun s => Prod.ext ?_ rfl,
      fun M wrt => funext fun s => Prod.ext ?_ rfl, fun M wrt fd td db => funext fun s => Prod.ext ?_ rfl⟩
    · exact (Upsample.anyVjp_congr e e' hs v wrt).trans rfl
    · cases M with
      | none => exact hJ wrt
      | some M => exact (Upsample.anyMjpSome_congr e e' hs M wrt).trans rfl
    · exact congrArg (fun r : Res (Option (Tensor ℝ)) => r >>= fun r => pure (PyVal.ofOption r)) ((Upsample.anyJTmjp_congr e e' hs M wrt fd td db).trans rfl)

/-- `mode="bilinear"`: forward returns images of `⌊h · num / den⌋ × ⌊w · num / den⌋` pixels, interpolated between the pixels around the
corresponding points of the original; its derivative is the matrix of these shares. -/
theorem C58_bilinear_forward (hd : 0 < den) (hn : den ≤ num) (hh : 0 < h) (hw : 0 < w) (hx : IsBatch x B [c, h, w] (c * h * w) X) :
    (∃ y Y, Returns ((Upsample.Options.mod { scale := .scalar ⟨num, den⟩, mode := .bilinear } id).forward x) st y ∧
      IsBatch y B [c, upLen num den h, upLen num den w] (c * upLen num den h * upLen num den w) Y ∧
      ∀ b (a : Fin c) (r : Fin (upLen num den h)) (s : Fin (upLen num den w)), Y b (pix a r s)
        = ∑ r' : Fin h, ∑ s' : Fin w, tent (bilPos num den h r) r' * tent (bilPos num den w s) s' * X b (pix a r' s')) ∧
    ∀ z, HasFDerivAt (forwardMap (Upsample.Options.mod { scale := .scalar ⟨num, den⟩, mode := .bilinear } id) st [c, h, w])
      (linMap (bilJ num den c h w)) z := by
  constructor
  · obtain ⟨y, hy1, hy⟩ := Upsample.bilinear_spec hd hn hh hw hx
    refine ⟨y, _, hy1, hy, fun b a r s => ?_⟩
    simp only [mulVec, dotProduct]
    rw [sum_pix, Finset.sum_eq_single a]
    · refine Finset.sum_congr rfl fun r' _ => Finset.sum_congr rfl fun s' _ => ?_
      simp only [bilJ, chan_pix, row_pix, col_pix, if_true]
    · intro a' _ ha'
      refine Finset.sum_eq_zero fun r _ => Finset.sum_eq_zero fun s _ => ?_
      simp [bilJ, ha'.symm]
    · simp
  · intro z
    rw [Upsample.bil_forwardMap hd hn hh hw]
    exact (linMap _).hasFDerivAt

/-- `mode="bilinear"`: `vjp` multiplies with the derivative of forward, for all vectors, exactly when the factor is 1 or the images
consist of one pixel. -/
theorem C58_bilinear_vjp_iff (hB : 0 < B) (hc : 0 < c) (hd : 0 < den) (hn : den ≤ num) (hh : 0 < h) (hw : 0 < w)
    (hx : IsBatch x B [c, h, w] (c * h * w) X) {D : Fin B → Matrix (Fin (c * upLen num den h * upLen num den w)) (Fin (c * h * w)) ℝ}
    (hD : ∀ b, HasFDerivAt (forwardMap (Upsample.Options.mod { scale := .scalar ⟨num, den⟩, mode := .bilinear } id) st [c, h, w]) (linMap (D b)) (X b)) :
    (∀ v V, IsVec v B (c * upLen num den h * upLen num den w) V →
      ∃ t, Returns ((Upsample.Options.mod { scale := .scalar ⟨num, den⟩, mode := .bilinear } id).vjp x none v .input) st (some t) ∧
        IsVec t B (c * h * w) fun b => V b ᵥ* D b) ↔
    (num = den ∨ (h = 1 ∧ w = 1)) := by
  have hDq : ∀ b, D b = bilJ num den c h w := fun b =>
    linMap_unique (hD b) ((C58_bilinear_forward id st hd hn hh hw hx).2 _)
  obtain ⟨y, hy1, hy⟩ := Upsample.bilinear_spec hd hn hh hw hx
  obtain ⟨y', hy1', hy'⟩ := Upsample.forward_specQ hd hn hh hw hx
  have hm := (C58_mode id st ⟨num, den⟩ (Upsample.Options.forward { scale := .scalar ⟨num, den⟩, mode := .bilinear }) none
    fun _ => ⟨y, y', hy1, hy1', hy.1.trans hy'.1.symm⟩).2.1
  have hm' : ∀ v, (Upsample.Options.mod { scale := .scalar ⟨num, den⟩, mode := .bilinear } id).vjp x none v .input = (Upsample.mod ⟨num, den⟩ id).vjp x none v .input :=
    fun v => hm v .input
  simp only [hm']
  constructor
  · intro H
    by_contra hne
    obtain ⟨h2, h3⟩ := not_or.1 hne
    have hlt : den < num := by omega
    by_cases hf : Upsample.Fits num den h ∧ Upsample.Fits num den w
    · refine Upsample.bilJ_ne hd hlt hc hh hw h3 ?_
      funext k m
      let V : Fin B → Fin (c * upLen num den h * upLen num den w) → ℝ := fun _ i => if i = k then 1 else 0
      let v : Tensor ℝ := ofFn [B, c * upLen num den h * upLen num den w] fun idx => if idx.getD 1 0 = k then 1 else 0
      have hv : IsVec v B (c * upLen num den h * upLen num den w) V := ⟨rfl, fun b i => by
        rw [get_ofFn _ (by simp)]
        simp [V, Fin.ext_iff]⟩
      obtain ⟨t, ht, hT⟩ := H v V hv
      obtain ⟨t', ht', hT'⟩ := (Upsample.vjp_fits hd hn hh hw hf.1 hf.2 hx hv)
      have e : Except.ok (some t) = Except.ok t' := Eq.trans (Eq.symm ht) ht'
      cases e
      have hT' : IsVec t B (c * h * w) fun b => V b ᵥ* Upsample.qP := hT'
      have e1 := (hT.2 ⟨0, hB⟩ m).symm.trans (hT'.2 ⟨0, hB⟩ m)
      have e2 : ∀ A : Matrix (Fin (c * upLen num den h * upLen num den w)) (Fin (c * h * w)) ℝ, (V ⟨0, hB⟩ ᵥ* A) m = A k m := fun A => by
        simp [vecMul, dotProduct, V]
      simp only [hDq] at e1
      exact (e2 _).symm.trans (e1.trans (e2 _))
    · have hv : IsVec (ones [B, c * upLen num den h * upLen num den w] : Tensor ℝ) B (c * upLen num den h * upLen num den w) fun _ _ => 1 :=
        ⟨rfl, fun _ _ => rfl⟩
      obtain ⟨t, ht, -⟩ := H _ _ hv
      obtain ⟨e, he⟩ := Upsample.vjp_misfit hd hn hB hc hh hw hf hx hv
      have : Except.ok (some t) = Except.error e := Eq.trans (Eq.symm ht) he
      cases this
  · intro h1 v V hv
    have hf : Upsample.Fits num den h ∧ Upsample.Fits num den w := by
      rcases h1 with rfl | ⟨rfl, rfl⟩
      · exact ⟨Upsample.fits_dvd hd hn (dvd_refl _), Upsample.fits_dvd hd hn (dvd_refl _)⟩
      · exact ⟨Upsample.fits_one hd hn, Upsample.fits_one hd hn⟩
    obtain ⟨t, ht, hT⟩ := Upsample.vjp_fits hd hn hh hw hf.1 hf.2 hx hv
    cases t with
    | none => exact hT.elim
    | some t =>
      refine ⟨t, ht, IsVec.congr hT fun b i => ?_⟩
      rw [hDq, Upsample.bilJ_eq hd h1]

/-- The same for `jacobian`. -/
theorem C58_bilinear_jacobian_iff (hB : 0 < B) (hc : 0 < c) (hd : 0 < den) (hn : den ≤ num) (hh : 0 < h) (hw : 0 < w)
    (hx : IsBatch x B [c, h, w] (c * h * w) X) {D : Fin B → Matrix (Fin (c * upLen num den h * upLen num den w)) (Fin (c * h * w)) ℝ}
    (hD : ∀ b, HasFDerivAt (forwardMap (Upsample.Options.mod { scale := .scalar ⟨num, den⟩, mode := .bilinear } id) st [c, h, w]) (linMap (D b)) (X b)) :
    (∃ t, Returns ((Upsample.Options.mod { scale := .scalar ⟨num, den⟩, mode := .bilinear } id).jacobian x none .input) st (some t) ∧
      IsMat t B (c * upLen num den h * upLen num den w) (c * h * w) D) ↔
    (num = den ∨ (h = 1 ∧ w = 1)) := by
  have hDq : ∀ b, D b = bilJ num den c h w := fun b =>
    linMap_unique (hD b) ((C58_bilinear_forward id st hd hn hh hw hx).2 _)
  obtain ⟨y1, hy1, hy⟩ := Upsample.bilinear_spec hd hn hh hw hx
  obtain ⟨y', hy1', hy'⟩ := Upsample.forward_specQ hd hn hh hw hx
  have hm := (C58_mode id st ⟨num, den⟩ (Upsample.Options.forward { scale := .scalar ⟨num, den⟩, mode := .bilinear }) none
    fun _ => ⟨y1, y', hy1, hy1', hy.1.trans hy'.1.symm⟩).1
  have hm' : (Upsample.Options.mod { scale := .scalar ⟨num, den⟩, mode := .bilinear } id).jacobian x none .input = (Upsample.mod ⟨num, den⟩ id).jacobian x none .input :=
    hm .input
  rw [hm']
  obtain ⟨y, M, hy, hM, e⟩ := Upsample.jac_eq (num := num) hd hn hh hw hx
  have hval : ∀ y' ∈ some y, y'.shape = [B, c, upLen num den h, upLen num den w] := by simpa using hy.1
  have hk : ∀ {g : Nat}, 0 < g → 0 < upLen num den g := fun hg => Upsample.lt_upLen hd hn hg
  constructor
  · rintro ⟨t, ht, hT⟩
    by_contra hne
    obtain ⟨h2, h3⟩ := not_or.1 hne
    have hlt : den < num := by omega
    by_cases hf : Upsample.Fits num den h ∧ Upsample.Fits num den w
    · refine Upsample.bilJ_ne hd hlt hc hh hw h3 ?_
      obtain ⟨t', ht', hT'⟩ := Upsample.mjp_fits hd hn hh hw hf.1 hf.2 hx hM hval
      have e' : Except.ok (some t) = Except.ok t' := Eq.trans (Eq.symm ht) (e.trans ht')
      cases e'
      have hT' : IsMat t B (c * upLen num den h * upLen num den w) (c * h * w) fun b => (1 : Matrix (Fin (c * upLen num den h * upLen num den w)) _ ℝ) * Upsample.qP := hT'
      funext k m
      have e1 := (hT.2 ⟨0, hB⟩ k m).symm.trans (hT'.2 ⟨0, hB⟩ k m)
      rwa [hDq, Matrix.one_mul] at e1
    · obtain ⟨e', he⟩ := Upsample.mjp_misfit hd hn hB hc hh hw (Nat.mul_pos (Nat.mul_pos hc (hk hh)) (hk hw)) hf hx hM hval
      have : Except.ok (some t) = Except.error e' := Eq.trans (Eq.symm ht) (e.trans he)
      cases this
  · intro h1
    have hf : Upsample.Fits num den h ∧ Upsample.Fits num den w := by
      rcases h1 with rfl | ⟨rfl, rfl⟩
      · exact ⟨Upsample.fits_dvd hd hn (dvd_refl _), Upsample.fits_dvd hd hn (dvd_refl _)⟩
      · exact ⟨Upsample.fits_one hd hn, Upsample.fits_one hd hn⟩
    obtain ⟨t, ht, hT⟩ := Upsample.mjp_fits hd hn hh hw hf.1 hf.2 hx hM hval
    cases t with
    | none => exact hT.elim
    | some t =>
      refine ⟨t, e.trans ht, IsMat.congr hT fun b i j => ?_⟩
      rw [hDq, Upsample.bilJ_eq hd h1, Matrix.one_mul]

/-- `size=(H, W)`: forward returns images of that size, the pixel in row `r` and column `s` being a copy of the one in row
`⌊r · h / H⌋` and column `⌊s · w / W⌋`. -/
theorem C58_size_forward {H W : Nat} (hH : 0 < H) (hW : 0 < W) (hh : 0 < h) (hw : 0 < w) (hx : IsBatch x B [c, h, w] (c * h * w) X) :
    ∃ y Y, Returns ((Upsample.Options.mod { size := some (H, W) } id).forward x) st y ∧ IsBatch y B [c, H, W] (c * H * W) Y ∧
      ∀ b (a : Fin c) (r : Fin H) (s : Fin W),
        ∃ (r' : Fin h) (s' : Fin w), (r' : Nat) = r * h / H ∧ (s' : Nat) = s * w / W ∧ Y b (pix a r s) = X b (pix a r' s') := by
  obtain ⟨y, hy1, hy⟩ := Upsample.size_spec hH hW hh hw hx
  refine ⟨y, _, hy1, hy, fun b a r s => ⟨⟨r * h / H, Nat.div_lt_of_lt_mul (Nat.mul_lt_mul_of_pos_right r.2 hh)⟩,
    ⟨s * w / W, Nat.div_lt_of_lt_mul (Nat.mul_lt_mul_of_pos_right s.2 hw)⟩, rfl, rfl, ?_⟩⟩
  simp only [chan_pix, row_pix, col_pix]

/-- With `size=`, or with a pair of factors, every product with respect to the input raises, whatever the arguments. -/
theorem C58_size_raises (o : Upsample.Options) (ho : ∀ f, o.scale ≠ .scalar f) (x : Tensor ℝ) (val : Option (Tensor ℝ)) :
    Raises ((o.mod id).jacobian x val .input) ∧
    (∀ v, Raises ((o.mod id).vjp x val v .input)) ∧
    (∀ M, Raises ((o.mod id).mjp x val M .input)) ∧
    (∀ v, Raises ((o.mod id).jvp x val v .input)) ∧
    (∀ M, Raises ((o.mod id).jmp x val M .input)) ∧
    (∀ M fd td db, Raises ((o.mod id).jmjTp x val M .input fd td db)) ∧
    (∀ M fd td db, Raises ((o.mod id).jTmjp x val M .input fd td db)) := by
  have hs : o.intScale = .error .type := by
    rw [Upsample.Options.intScale]
    cases h : o.scale with
    | scalar f => exact absurd h (ho f)
    | missing => rfl
    | pair _ _ => rfl
  have hF : Upsample.Fails o.intScale := ⟨_, hs⟩
  have hm : ∀ val M, Upsample.Fails (Upsample.anyMjpSome o.forward o.intScale x val M .input) := fun val M =>
    .right _ fun _ => .right _ fun _ => .right _ fun _ => .right _ fun _ => .right _ fun _ => .right _ fun _ => .right _ fun _ => .right _ fun _ =>
      .left hF
  have hj : Upsample.Fails (Upsample.anyJacobian o.forward o.intScale x val .input) :=
    .right _ fun _ => .right _ fun _ => .right _ fun _ => .right _ fun _ => .right _ fun _ => hm _ _
  have lift : ∀ {β : Type} {p : Res β}, Upsample.Fails p → Raises (fun s : Store ℝ => (p, s)) := by
    rintro β p ⟨e, rfl⟩ s
    exact ⟨e, s, rfl⟩
  refine ⟨lift hj, fun v => lift ?_, fun M => lift ?_, fun v => lift ⟨_, rfl⟩, fun M => lift ?_, fun M fd td db => lift ?_,
    fun M fd td db => lift ?_⟩
  · exact .right _ fun _ => .right _ fun _ => .right _ fun _ => .right _ fun _ => .right _ fun _ => .left hF
  · cases M with
    | none => exact hj
    | some M => exact hm _ _
  · cases M with
    | none => exact hj
    | some M => exact ⟨_, rfl⟩
  · exact .right _ fun _ => .right _ fun _ => ⟨_, rfl⟩
  · refine .left ?_
    cases M with
    | none =>
      refine .right _ fun _ => .right _ fun _ => .right _ fun _ => .right _ fun _ => .right _ fun _ => .right _ fun q => ?_
      obtain ⟨m, fd⟩ := q
      cases fd <;> cases td <;> refine .right _ fun _ => ?_
      · exact .left hF
      · exact .left hF
      · exact .right _ fun _ => .left hF
      · exact .left hF
    | some m =>
      refine .right _ fun _ => .right _ fun _ => .right _ fun _ => .right _ fun _ => .right _ fun q => ?_
      obtain ⟨m, fd⟩ := q
      cases fd <;> cases td <;> refine .right _ fun _ => ?_
      · exact .left hF
      · exact .left hF
      · exact .right _ fun _ => .left hF
      · exact .left hF

/-- In a well-formed call the exception is the TypeError of `int(self.scale_factor)`. -/
theorem C58_size_type {H W : Nat} (hH : 0 < H) (hW : 0 < W) (hh : 0 < h) (hw : 0 < w) (hx : IsBatch x B [c, h, w] (c * h * w) X) :
    ((Upsample.Options.mod { size := some (H, W) } id).jacobian x none .input st).1 = .error .type ∧
    (∀ v V, IsVec v B (c * H * W) V → ((Upsample.Options.mod { size := some (H, W) } id).vjp x none v .input st).1 = .error .type) ∧
    (∀ r M Z, IsMat M B r (c * H * W) Z → ((Upsample.Options.mod { size := some (H, W) } id).mjp x none (some M) .input st).1 = .error .type) ∧
    (∀ M Z td db, IsMat M B (c * H * W) (c * H * W) Z →
      ((Upsample.Options.mod { size := some (H, W) } id).jTmjp x none (some M) .input false td db st).1 = .error .type) := by
  obtain ⟨y, hy1, hy⟩ := Upsample.size_spec hH hW hh hw hx
  have hs : (Upsample.Options.intScale { size := some (H, W) }) = .error .type := rfl
  have hmjp : ∀ r M Z (val : Option (Tensor ℝ)), (val = none ∨ val = some y) → IsMat M B r (c * H * W) Z →
      Upsample.anyMjpSome (Upsample.Options.forward { size := some (H, W) }) (.error .type) x val M .input = .error .type := fun r M Z val hval hM => by
    have hd' : ∀ {i d}, [B, r, c * H * W][i]? = some d → M.dim i = .ok d := by
      intro i d hi; simp only [Tensor.dim, hM.1, hi]
    have hg : Upsample.anyVal (Upsample.Options.forward { size := some (H, W) }) x val = .ok y := by
      rcases hval with rfl | rfl
      · exact hy1
      · rfl
    simp only [Upsample.anyMjpSome, hg, hx.dims4, hy.dims4, Res.bind_ok, assertR, hd' (i := 0) rfl, hd' (i := 1) rfl, hd' (i := 2) rfl,
      and_self]
    rfl
  refine ⟨?_, fun v V hv => ?_, fun r M Z hM => hmjp r M Z none (Or.inl rfl) hM, fun M Z td db hM => ?_⟩
  · show Upsample.anyJacobian _ (.error .type) x none .input = _
    have h1 : IsVec (ones [B, c * H * W] : Tensor ℝ) B (c * H * W) fun _ _ => 1 := ⟨rfl, fun _ _ => rfl⟩
    obtain ⟨M, hM1, hM⟩ := diagEmbed_vec h1
    simp only [Upsample.anyJacobian, Upsample.anyVal, hy1, hx.dims4, hy.dims4, Res.bind_ok, assertR, hM1]
    exact hmjp _ _ _ _ (Or.inr rfl) hM
  · show Upsample.anyVjp _ (.error .type) x none v .input = _
    simp only [Upsample.anyVjp, Upsample.anyVal, hy1, hx.dims4, hy.dims4, Res.bind_ok, assertR, hv.1]
    rfl
  · show (Upsample.anyJTmjp _ (.error .type) x none (some M) .input false td db >>= _) = _
    cases td
    · simp only [Upsample.anyJTmjp, Upsample.anyVal, hy1, hx.dims4, hy.dims4, Res.bind_ok, Res.pure_eq, assertR, hM.1, Bool.false_eq_true, if_false]
      rfl
    · simp only [Upsample.anyJTmjp, Upsample.anyVal, hy1, hx.dims4, hy.dims4, Res.bind_ok, Res.pure_eq, assertR, hM.1, Bool.false_eq_true, if_false]
      rfl

/-- Forward raises ValueError when both or none of `size` and `scale_factor` are given. -/
theorem C58_size_and_scale (o : Upsample.Options) (ho : o.size.isSome ↔ o.scale ≠ .missing) (hx : IsBatch x B [c, h, w] (c * h * w) X) :
    ((o.mod id).forward x st).1 = .error .value := by
  obtain ⟨size, scale, mode⟩ := o
  show Upsample.Options.forward _ x = _
  simp only [Upsample.Options.forward, hx.1]
  have : Upsample.Options.target ⟨size, scale, mode⟩ h w = .error .value := by
    cases size <;> cases scale <;> simp at ho <;> rfl
  rw [this]
  rfl

/-- two 2 x 2 images, factor 2: the jacobian of bilinear interpolation is not the one returned -/
example : ∃ D, (∀ z, HasFDerivAt (forwardMap (Upsample.Options.mod { scale := .scalar ⟨2, 1⟩, mode := .bilinear } id) st [1, 2, 2]) (linMap D) z) ∧
    ¬ ∃ t, Returns ((Upsample.Options.mod { scale := .scalar ⟨2, 1⟩, mode := .bilinear } id).jacobian (ones [2, 1, 2, 2]) none .input) st (some t) ∧
      IsMat t 2 (1 * upLen 2 1 2 * upLen 2 1 2) (1 * 2 * 2) fun _ => D := by
  have hx : IsBatch (ones [2, 1, 2, 2] : Tensor ℝ) 2 [1, 2, 2] (1 * 2 * 2) fun _ _ => 1 := ⟨rfl, fun _ _ => rfl⟩
  have hD := (C58_bilinear_forward (num := 2) (den := 1) id st (by norm_num) (by norm_num) (by norm_num) (by norm_num) hx).2
  refine ⟨_, hD, fun H => ?_⟩
  have := (C58_bilinear_jacobian_iff id st (by norm_num) (by norm_num) (by norm_num) (by norm_num) (by norm_num) (by norm_num) hx
    (fun b => hD _)).1 H
  omega

/-- the second pixel of a row `a, b` enlarged by 2 is `3/4 a + 1/4 b` -/
example : tent (bilPos 2 1 2 1) 0 = 3 / 4 ∧ tent (bilPos 2 1 2 1) 1 = 1 / 4 := by
  have e : bilPos 2 1 2 1 = 1 / 4 := by
    rw [bilPos, max_eq_right (by norm_num), min_eq_left (by norm_num)]; norm_num
  rw [e, tent, tent, abs_of_pos (by norm_num), abs_of_neg (by norm_num), max_eq_right (by norm_num), max_eq_right (by norm_num)]
  norm_num

/-- `size=(5, 7)` on two 2 x 3 images -/
example : ((Upsample.Options.mod { size := some (5, 7) } id).vjp (ones [2, 1, 2, 3]) none (ones [2, 1 * 5 * 7]) .input st).1 = .error .type :=
  (C58_size_type (X := fun _ _ => 1) id st (by norm_num) (by norm_num) (by norm_num) (by norm_num) ⟨rfl, fun _ _ => rfl⟩).2.1 _ (fun _ _ => 1) ⟨rfl, fun _ _ => rfl⟩

/-- a pair of factors -/
example : ∀ f, (Upsample.Options.scale { scale := .pair ⟨2, 1⟩ ⟨3, 1⟩ }) ≠ .scalar f := by simp

example : (Option.isSome (Upsample.Options.size { size := some (4, 4), scale := .scalar ⟨2, 1⟩ })) ↔
    (Upsample.Options.scale { size := some (4, 4), scale := .scalar ⟨2, 1⟩ }) ≠ .missing := by simp

end Props
end NNJ
