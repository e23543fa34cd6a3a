import Verif.Proofs.ConvDil

/-!
# C44: Conv2d with any padding, dilation and number of groups
-/

namespace NNJ
namespace Props
open Tensor Matrix Prog

section
variable (g : GConv) (id wId : Nat) (bId : Option Nat) {st : Store ℝ} {B : Nat} {X : Fin B → Fin (g.c1 * g.h1 * g.w1) → ℝ} {x : Tensor ℝ}

/-- the value of the bias attribute -/
private noncomputable def gbias (bId : Option Nat) (st : Store ℝ) : Option (Tensor ℝ) :=
  if bId.isSome then some (st.param (bId.getD 0)) else none

private theorem gbias_shape (hw : g.Params wId bId st) : ∀ t ∈ gbias bId st, t.shape = [g.c2] := by
  cases bId with
  | none => simp [gbias]
  | some b => intro t ht; simp [gbias] at ht; subst ht; exact hw.bias b rfl

/-- C44: `forward` computes the cross-correlation of the zero-padded image with the dilated kernel, group by group:
`y[o,r,s] = Σ_c Σ_i Σ_j x[c, r + i dh - ph, s + j dw - pw] W[o, c mod cg, i, j] + b[o]`, the sum over the channels
`c` in the group of `o`. -/
theorem C44_forward (hw : g.Params wId bId st) (hx : IsBatch x B [g.c1, g.h1, g.w1] (g.c1 * g.h1 * g.w1) X) :
    ∃ t Y, Returns ((g.mod id wId bId).forward x) st t ∧ IsBatch t B [g.c2, g.h2, g.w2] (g.c2 * g.h2 * g.w2) Y ∧
      ∀ b (o : Fin g.c2) (r : Fin g.h2) (s : Fin g.w2), Y b (pix o r s) =
        (∑ c : Fin g.c1, ∑ i : Fin g.kh, ∑ j : Fin g.kw,
          padAt (fun (u : Fin g.h1) (v : Fin g.w1) => X b (pix c u v)) (((r : Nat) + i * g.dh : Nat) - (g.ph : Int))
            (((s : Nat) + j * g.dw : Nat) - (g.pw : Int)) * g.ker (st.param wId).data o c i j) +
        match bId with
        | some β => (st.param β).data o
        | none => 0 := by
  obtain ⟨t, ht, hT⟩ := GConv.forward_specG (bId := bId) hw.weight (gbias_shape g wId bId hw) hx
  refine ⟨t, _, ht, hT, fun b o r s => ?_⟩
  simp only [GConv.F, chan_pix, row_pix, col_pix]
  congr 1
  cases bId with
  | none => simp [gbias, biasAt]
  | some β => simp only [gbias, biasAt, Option.isSome_some, if_true, Option.getD_some]; rw [get1 (hw.bias β rfl)]

/-- C44: for every padding, dilation and number of groups, `jacobian` with respect to the input is the derivative of
`forward`, and `vjp`, `mjp` and `jTmjp` with respect to the input are the products with it. -/
theorem C44_input (hw : g.Params wId bId st) (hx : IsBatch x B [g.c1, g.h1, g.w1] (g.c1 * g.h1 * g.w1) X) :
    ∃ jt J, Returns ((g.mod id wId bId).jacobian x none .input) st (some jt) ∧
      IsMat jt B (g.c2 * g.h2 * g.w2) (g.c1 * g.h1 * g.w1) J ∧
      (∀ b, HasFDerivAt (forwardMap (g.mod id wId bId) st [g.c1, g.h1, g.w1]) (linMap (J b)) (X b)) ∧
      (∀ v V, IsVec v B (g.c2 * g.h2 * g.w2) V → ∃ t, Returns ((g.mod id wId bId).vjp x none v .input) st (some t) ∧
        IsVec t B (g.c1 * g.h1 * g.w1) fun b => V b ᵥ* J b) ∧
      (∀ r A Z, IsMat A B r (g.c2 * g.h2 * g.w2) Z →
        ∃ t, Returns ((g.mod id wId bId).mjp x none (some A) .input) st (some t) ∧
          IsMat t B r (g.c1 * g.h1 * g.w1) fun b => Z b * J b) ∧
      (∀ fromDiag toDiag A Z, MetricArg fromDiag A B (g.c2 * g.h2 * g.w2) Z →
        ∃ t, Returns ((g.mod id wId bId).jTmjp x none (some A) .input fromDiag toDiag false) st (.tensor t) ∧
          MetricOut toDiag t B (g.c1 * g.h1 * g.w1) fun b => (J b)ᵀ * Z b * J b) := by
  have hW := hw.weight
  obtain ⟨y, hy, hY⟩ := GConv.forward_specG (bId := bId) hW (gbias_shape g wId bId hw) hx
  have e1 : Conv2d.getVal (g.cfg bId) (st.param wId) (gbias bId st) x none = .ok y := hy
  have e2 := hx.dims4
  have e3 := hY.dims4
  have hone : IsVec (ones [B, g.c2 * g.h2 * g.w2] : Tensor ℝ) B (g.c2 * g.h2 * g.w2) fun _ _ => 1 := ⟨rfl, fun _ _ => rfl⟩
  have hj : Ret (Conv2d.jacobian (g.cfg bId) (st.param wId) (gbias bId st) x none .input)
      (IsSome fun t => IsMat t B (g.c2 * g.h2 * g.w2) (g.c1 * g.h1 * g.w1) fun _ => g.J (st.param wId).data) := by
    simp only [Conv2d.jacobian, e1, e3, Res.bind_ok]
    refine (diagEmbed_vec hone).bind fun r hr => (GConv.mjpSomeI hW hx hY hr).mono fun t ht => ht.mono fun t ht => ht.congr fun b i j => ?_
    rw [show (diagonal (fun _ => 1) : Matrix (Fin (g.c2 * g.h2 * g.w2)) _ ℝ) = 1 from diagonal_one, Matrix.one_mul]
  obtain ⟨jt, ej, hJ⟩ := hj.exists_some
  refine ⟨jt, _, ej, hJ, fun b => ?_, fun v V hv => ?_, fun r A Z hA => ?_, fun fd td A Z hA => ?_⟩
  · have e : forwardMap (g.mod id wId bId) st [g.c1, g.h1, g.w1]
        = fun (z : Fin (g.c1 * g.h1 * g.w1) → ℝ) => linMap (g.J (st.param wId).data) z + fun k => biasAt (gbias bId st) (chan k : Fin g.c2) := by
      funext z i
      obtain ⟨t, ht, hT⟩ := GConv.forward_specG (bId := bId) hW (gbias_shape g wId bId hw) (ofSample_isBatch (s := [g.c1, g.h1, g.w1]) z)
      have ht' : ((g.mod id wId bId).forward (ofSample [g.c1, g.h1, g.w1] z) st).1 = .ok t := ht
      simp only [forwardMap, ht']
      have := hT.2 0 i
      simp only [Fin.val_zero, Nat.zero_mul, Nat.zero_add] at this
      rw [this, GConv.F_eq]
      rfl
    rw [e]
    exact ((linMap _).hasFDerivAt).add_const _
  · have h : Ret (Conv2d.vjp (g.cfg bId) (st.param wId) (gbias bId st) x none v .input)
        (IsSome fun t => IsVec t B (g.c1 * g.h1 * g.w1) fun b => V b ᵥ* g.J (st.param wId).data) := by
      simp only [Conv2d.vjp, e1, e2, e3, Res.bind_ok]
      refine (Ret.assertR hv.1).bind fun _ _ => ?_
      have := (GConv.vjpI_spec (bId := bId) hW hv).some
      simpa only [map_bind] using this
    exact h.exists_some
  · have h : Ret (Conv2d.mjp (g.cfg bId) (st.param wId) (gbias bId st) x none (some A) .input)
        (IsSome fun t => IsMat t B r (g.c1 * g.h1 * g.w1) fun b => Z b * g.J (st.param wId).data) := by
      simp only [Conv2d.mjp, e1, Res.bind_ok]
      exact GConv.mjpSomeI hW hx hY hA
    exact h.exists_some
  · have h : Ret (Conv2d.jTmjp (g.cfg bId) (st.param wId) (gbias bId st) x none (some A) .input fd td false)
        (IsSome fun t => MetricOut td t B (g.c1 * g.h1 * g.w1) fun b => (g.J (st.param wId).data)ᵀ * Z b * g.J (st.param wId).data) := by
      simp only [Conv2d.jTmjp, e1, Res.bind_ok]
      cases fd <;> cases td <;> dsimp only
      · exact (GConv.jTfull hW hx hY hA).some
      · exact (GConv.jTfull hW hx hY hA).bind fun r hr => (diagonal12_mat hr).some
      · obtain ⟨d, hd, hZ⟩ := hA
        exact (diagEmbed_vec hd).bind fun r hr => ((GConv.jTfull hW hx hY hr).mono fun t ht => ht.congr fun b i j => by rw [hZ]).some
      · obtain ⟨d, hd, hZ⟩ := hA
        refine ((GConv.diagI_spec hW hx hY hd).mono fun t ht => ?_).some
        refine IsVec.congr ht fun b i => ?_
        simp only [hZ]
        rw [diag_sandwichT]
    obtain ⟨t, et, hT⟩ := h.exists_some
    refine ⟨t, ?_, hT⟩
    show (do let r ← Conv2d.jTmjp (g.cfg bId) (st.param wId) (gbias bId st) x none (some A) .input fd td false; pure (PyVal.ofOption r)) = _
    rw [et]; rfl

/-- C44: with a dilation of 2 or more in a direction in which the image or the kernel has more than one pixel,
every weight-space product raises, although `forward` and the products wrt the input work. -/
theorem C44_weight_raises (hd : (2 ≤ g.dh ∧ (2 ≤ g.h1 ∨ 2 ≤ g.kh)) ∨ (2 ≤ g.dw ∧ (2 ≤ g.w1 ∨ 2 ≤ g.kw)))
    (hw : g.Params wId bId st) (hB : 0 < B) (hx : IsBatch x B [g.c1, g.h1, g.w1] (g.c1 * g.h1 * g.w1) X) :
    (∀ r, ¬ Returns ((g.mod id wId bId).jacobian x none .weight) st r) ∧
    (∀ v r, ¬ Returns ((g.mod id wId bId).vjp x none v .weight) st r) ∧
    (∀ A r, (∀ m ∈ A, m.shape[1]? ≠ some 0) → ¬ Returns ((g.mod id wId bId).mjp x none A .weight) st r) ∧
    (∀ A fromDiag toDiag diagBackprop r, ¬ Returns ((g.mod id wId bId).jTmjp x none A .weight fromDiag toDiag diagBackprop) st r) := by
  obtain ⟨y, hy, hY⟩ := GConv.forward_specG (bId := bId) hw.weight (gbias_shape g wId bId hw) hx
  have e1 : Conv2d.getVal (g.cfg bId) (st.param wId) (gbias bId st) x none = .ok y := hy
  have e3 := hY.dims4
  have hd' : g.Dilated := hd
  have pk : 0 < g.c2 * g.h2 * g.w2 := Nat.mul_pos (Nat.mul_pos (Nat.mul_pos g.pG g.pog) g.ph2) g.pw2
  have lift : ∀ {β : Type} {p : Res β} {r : β}, Bad p → p = .ok r → False := by
    rintro β p r ⟨e, rfl⟩ h; cases h
  have hj : ∀ val, Conv2d.getVal (g.cfg bId) (st.param wId) (gbias bId st) x val = .ok y →
      Bad (Conv2d.jacobian (g.cfg bId) (st.param wId) (gbias bId st) x val .weight) := by
    intro val e
    simp only [Conv2d.jacobian, e, e3, Res.bind_ok]
    have hone : IsVec (ones [B, g.c2 * g.h2 * g.w2] : Tensor ℝ) B (g.c2 * g.h2 * g.w2) fun _ _ => 1 := ⟨rfl, fun _ _ => rfl⟩
    refine Bad.ret (diagEmbed_vec hone) fun r hr => ?_
    refine GConv.mjpSome_bad hd' hB hx.1 hY.1 ?_
    rw [hr.1]
    simp only [List.getElem?_cons_succ, List.getElem?_cons_zero, ne_eq, Option.some.injEq]
    omega
  refine ⟨fun r h => lift (hj none e1) h, fun v r h => ?_, fun A r hA h => ?_, fun A fd td db r h => ?_⟩
  · have hb := GConv.vjp_bad (bId := bId) (W := st.param wId) (bias := gbias bId st) (v := v) hd' hB hx.1 hY.1
    have e : Conv2d.vjp (g.cfg bId) (st.param wId) (gbias bId st) x none v .weight
        = Conv2d.vjp (g.cfg bId) (st.param wId) (gbias bId st) x (some y) v .weight := by
      simp only [Conv2d.vjp]
      rw [e1]
      rfl
    rw [← e] at hb
    exact lift hb h
  · have hb : Bad (Conv2d.mjp (g.cfg bId) (st.param wId) (gbias bId st) x none A .weight) := by
      simp only [Conv2d.mjp, e1, Res.bind_ok]
      cases A with
      | none => exact hj (some y) rfl
      | some A => exact GConv.mjpSome_bad hd' hB hx.1 hY.1 (hA A rfl)
    exact lift hb h
  · have hb : Bad (Conv2d.jTmjp (g.cfg bId) (st.param wId) (gbias bId st) x none A .weight fd td db) := by
      simp only [Conv2d.jTmjp, e1, Res.bind_ok]
      have hf : ∀ m, Bad (Conv2d.jTmjpWeightFull (g.cfg bId) (gbias bId st) x y m) := fun m => GConv.full_bad hd' hB hx.1 hY.1
      have hg : ∀ m, Bad (Conv2d.jTmjpWeightDiag (g.cfg bId) (gbias bId st) x y m) := fun m => GConv.diag_bad hd' hB hx.1 hY.1
      cases A with
      | none =>
        cases td
        · exact Bad.bindAll fun _ _ => (hf _).map
        · exact (hg _).map
      | some m =>
        cases fd <;> cases td
        · exact (hf _).map
        · exact (hf _).bind
        · exact Bad.bindAll fun _ _ => (hf _).map
        · exact (hg _).map
    have e : (do let r ← Conv2d.jTmjp (g.cfg bId) (st.param wId) (gbias bId st) x none A .weight fd td db; pure (PyVal.ofOption r)) = .ok r := h
    exact lift hb.bind e

end

/-- two groups of one channel each, a 2 x 2 kernel with dilation (2, 1) and padding (2, 3), on 3 x 2 images -/
def exG : GConv where
  G := 2
  cg := 1
  og := 1
  h1 := 3
  w1 := 2
  h2 := 5
  w2 := 7
  kh := 2
  kw := 2
  ph := 2
  pw := 3
  dh := 2
  dw := 1
  vmap := true
  pG := by decide
  pcg := by decide
  pog := by decide
  pkh := by decide
  pkw := by decide
  pdh := by decide
  pdw := by decide
  ph1 := by decide
  pw1 := by decide
  ph2 := by decide
  pw2 := by decide
  eh := by decide
  ew := by decide

/-- parameter 0 is the weight tensor `1, 2, ..., 8`, parameter 1 the bias -/
def exGStore : Store ℝ where
  param := fun i => if i = 0 then ⟨[2, 1, 2, 2], fun k => (k : ℝ) + 1⟩ else ⟨[2], fun _ => 1⟩
  fmaps := fun _ => none
  pidx := fun _ => none
  hooks := fun _ => []

theorem exG_params : exG.Params 0 (some 1) exGStore := ⟨rfl, fun b hb => by simp at hb; subst hb; rfl⟩

theorem exG_batch : IsBatch (ones [2, 2, 3, 2] : Tensor ℝ) 2 [exG.c1, exG.h1, exG.w1] (exG.c1 * exG.h1 * exG.w1) fun _ _ => 1 :=
  ⟨rfl, fun _ _ => rfl⟩

example : (∃ jt J, Returns ((exG.mod 5 0 (some 1)).jacobian (ones [2, 2, 3, 2]) none .input) exGStore (some jt) ∧
      IsMat jt 2 (exG.c2 * exG.h2 * exG.w2) (exG.c1 * exG.h1 * exG.w1) J ∧
      ∀ b, HasFDerivAt (forwardMap (exG.mod 5 0 (some 1)) exGStore [exG.c1, exG.h1, exG.w1]) (linMap (J b)) (fun _ => 1)) ∧
    ∀ r, ¬ Returns ((exG.mod 5 0 (some 1)).jacobian (ones [2, 2, 3, 2]) none .weight) exGStore r := by
  obtain ⟨jt, J, h1, h2, h3, _⟩ := C44_input exG 5 0 (some 1) exG_params exG_batch
  exact ⟨⟨jt, J, h1, h2, h3⟩, (C44_weight_raises exG 5 0 (some 1) (.inl ⟨by decide, .inl (by decide)⟩) exG_params (by norm_num) exG_batch).1⟩

end Props
end NNJ
