import Verif.Proofs.GNet

/-! Conv2d with any padding, dilation and number of groups is an exact layer. -/

namespace NNJ
open Tensor Matrix
namespace GConv
variable (g : GConv) (id wId : Nat) (bId : Option Nat) {st : Store ℝ}

theorem ker_congr {W W' : Nat → ℝ} (h : ∀ m, m < g.c2 * g.cg * g.kh * g.kw → W m = W' m) {o c i j : Nat} (ho : o < g.c2) (hi : i < g.kh)
    (hj : j < g.kw) : g.ker W o c i j = g.ker W' o c i j := by
  simp only [ker]
  split_ifs
  · refine h _ ?_
    have hc : c % g.cg < g.cg := Nat.mod_lt _ g.pcg
    have e1 : o * g.cg + c % g.cg < g.c2 * g.cg := by
      calc o * g.cg + c % g.cg < o * g.cg + g.cg := by omega
        _ = (o + 1) * g.cg := by ring
        _ ≤ g.c2 * g.cg := Nat.mul_le_mul_right _ ho
    have e2 : (o * g.cg + c % g.cg) * g.kh + i < g.c2 * g.cg * g.kh := by
      calc (o * g.cg + c % g.cg) * g.kh + i < (o * g.cg + c % g.cg) * g.kh + g.kh := by omega
        _ = (o * g.cg + c % g.cg + 1) * g.kh := by ring
        _ ≤ g.c2 * g.cg * g.kh := Nat.mul_le_mul_right _ e1
    calc ((o * g.cg + c % g.cg) * g.kh + i) * g.kw + j < ((o * g.cg + c % g.cg) * g.kh + i) * g.kw + g.kw := by omega
      _ = ((o * g.cg + c % g.cg) * g.kh + i + 1) * g.kw := by ring
      _ ≤ g.c2 * g.cg * g.kh * g.kw := Nat.mul_le_mul_right _ e2
  · rfl

theorem J_congr {W W' : Nat → ℝ} (h : ∀ m, m < g.c2 * g.cg * g.kh * g.kw → W m = W' m) : g.J W = g.J W' := by
  funext k m
  simp only [J]
  refine Finset.sum_congr rfl fun i _ => Finset.sum_congr rfl fun j _ => if_congr Iff.rfl ?_ rfl
  exact g.ker_congr h (chan k : Fin g.c2).2 i.2 j.2

theorem wAt_w (m : Nat) (h : m < g.c2 * g.cg * g.kh * g.kw) : g.wAt bId (g.w wId bId st) m = (st.param wId).data m := by
  rw [wAt, dif_pos h, w, Fin.append_left]

theorem J_w : g.J (g.wAt bId (g.w wId bId st)) = g.J (st.param wId).data := g.J_congr (g.wAt_w wId bId)

theorem F_w (x : Fin (g.c1 * g.h1 * g.w1) → ℝ) : g.F (g.wAt bId (g.w wId bId st)) x = g.F (st.param wId).data x := by
  rw [F_eq, F_eq, J_w]

/-- the value of the bias attribute -/
noncomputable def biasOf (bId : Option Nat) (st : Store ℝ) : Option (Tensor ℝ) :=
  if bId.isSome then some (st.param (bId.getD 0)) else none

theorem biasOf_shape (hw : g.Params wId bId st) : ∀ t ∈ biasOf bId st, t.shape = [g.c2] := by
  cases bId with
  | none => simp [biasOf]
  | some b => intro t ht; simp [biasOf] at ht; subst ht; exact hw.bias b rfl

theorem bAt_w (hw : g.Params wId bId st) (o : Nat) (ho : o < g.c2) : g.bAt bId (g.w wId bId st) o = biasAt (biasOf bId st) o := by
  cases bId with
  | none => simp [bAt, biasOf, biasAt, biasLen]
  | some b =>
    simp only [biasOf, biasAt, Option.isSome_some, if_true, Option.getD_some]
    rw [get1 (hw.bias b rfl), bAt, dif_pos (show o < biasLen (some b) g.c2 from ho), w, Fin.append_right]

variable {B : Nat} {X : Fin B → Fin (g.c1 * g.h1 * g.w1) → ℝ} {x : Tensor ℝ}

theorem forward_w (hw : g.Params wId bId st) (hx : IsBatch x B [g.c1, g.h1, g.w1] (g.c1 * g.h1 * g.w1) X) :
    Ret (Conv2d.forward (g.cfg bId) (st.param wId) (biasOf bId st) x) fun v =>
      IsBatch v B [g.c2, g.h2, g.w2] (g.c2 * g.h2 * g.w2) fun b => (g.layer id wId bId).f (g.w wId bId st) (X b) := by
  refine (forward_specG (bId := bId) hw.weight (biasOf_shape g wId bId hw) hx).mono fun t ht => ht.congr fun b k => ?_
  simp only [layer]
  rw [F_w, bAt_w g wId bId hw _ (chan k : Fin g.c2).2]

theorem getVal_w (hw : g.Params wId bId st) (hx : IsBatch x B [g.c1, g.h1, g.w1] (g.c1 * g.h1 * g.w1) X) {val : Option (Tensor ℝ)}
    (hv : ∀ v ∈ val, IsBatch v B [g.c2, g.h2, g.w2] (g.c2 * g.h2 * g.w2) fun b => (g.layer id wId bId).f (g.w wId bId st) (X b)) :
    ∃ y, Conv2d.getVal (g.cfg bId) (st.param wId) (biasOf bId st) x val = .ok y ∧
      IsBatch y B [g.c2, g.h2, g.w2] (g.c2 * g.h2 * g.w2) fun b => (g.layer id wId bId).f (g.w wId bId st) (X b) := by
  cases val with
  | none => exact g.forward_w id wId bId hw hx
  | some v => exact ⟨v, rfl, hv v rfl⟩

theorem run_some {q : Store ℝ → Res (Option (Tensor ℝ))} {P : Tensor ℝ → Prop} (h : Ret (q st) (IsSome P)) :
    ∃ t, (fun s => (q s, s) : Prog ℝ _) st = (.ok (some t), st) ∧ P t := by
  obtain ⟨t, e, ht⟩ := h.exists_some
  exact ⟨t, by simp only [e], ht⟩

theorem run_val {q : Store ℝ → Res (Option (Tensor ℝ))} {P : Tensor ℝ → Prop} (h : Ret (q st) (IsSome P)) :
    ∃ t, (fun s => ((do let r ← q s; pure (PyVal.ofOption r)), s) : Prog ℝ (PyVal ℝ)) st = (.ok (.tensor t), st) ∧ P t := by
  obtain ⟨t, e, ht⟩ := h.exists_some
  exact ⟨t, by simp only [e]; rfl, ht⟩

theorem jT_w (hw : g.Params wId bId st) (hx : IsBatch x B [g.c1, g.h1, g.w1] (g.c1 * g.h1 * g.w1) X) {val : Option (Tensor ℝ)}
    (hv : ∀ v ∈ val, IsBatch v B [g.c2, g.h2, g.w2] (g.c2 * g.h2 * g.w2) fun b => (g.layer id wId bId).f (g.w wId bId st) (X b))
    (fd td db : Bool) {A : Tensor ℝ} {Z} (hA : MetricArg fd A B (g.c2 * g.h2 * g.w2) Z) :
    Ret (Conv2d.jTmjp (g.cfg bId) (st.param wId) (biasOf bId st) x val (some A) .input fd td db)
      (IsSome fun t => MetricOut td t B (g.c1 * g.h1 * g.w1) fun b => (g.J (st.param wId).data)ᵀ * Z b * g.J (st.param wId).data) := by
  obtain ⟨y, e1, hY⟩ := g.getVal_w id wId bId hw hx hv
  have hW := hw.weight
  simp only [Conv2d.jTmjp, e1, Res.bind_ok]
  cases fd <;> cases td <;> dsimp only
  · exact (jTfull hW hx hY hA).some
  · exact (jTfull hW hx hY hA).bind fun r hr => (diagonal12_mat hr).some
  · obtain ⟨d, hd, hZ⟩ := hA
    exact (diagEmbed_vec hd).bind fun r hr => ((jTfull hW hx hY hr).mono fun t ht => ht.congr fun b i j => by rw [hZ]).some
  · obtain ⟨d, hd, hZ⟩ := hA
    refine ((diagI_spec hW hx hY hd).mono fun t ht => ?_).some
    refine IsVec.congr ht fun b i => ?_
    simp only [hZ]
    rw [diag_sandwichT]

theorem layer_exact : (g.layer id wId bId).Exact where
  hn := size_img
  hk := size_img
  npos := Nat.mul_pos (Nat.mul_pos (Nat.mul_pos g.pG g.pcg) g.ph1) g.pw1
  kpos := Nat.mul_pos (Nat.mul_pos (Nat.mul_pos g.pG g.pog) g.ph2) g.pw2
  params_of := fun e h => ⟨by rw [e]; exact h.weight, fun b hb => by rw [e]; exact h.bias b hb⟩
  w_of := fun e => by simp only [layer, w, e]
  deriv := fun w x _ => by
    have e : (g.layer id wId bId).f w = fun z => linMap (g.J (g.wAt bId w)) z + fun k => g.bAt bId w (chan k : Fin g.c2) := by
      funext z k
      simp only [layer, F_eq]
      rfl
    rw [e]
    exact ((linMap _).hasFDerivAt).add_const _
  forward := @fun st B X x hw hB hx => by
    obtain ⟨t, ht, hT⟩ := g.forward_w id wId bId hw hx
    exact ⟨t, Prod.ext ht rfl, hT⟩
  jacobian := @fun st B X x hw hB hx => by
    obtain ⟨y, e1, hY⟩ := g.getVal_w id wId bId (val := none) hw hx (fun _ h => by cases h)
    refine run_some (q := fun s => Conv2d.jacobian (g.cfg bId) (s.param wId) (biasOf bId s) x none .input) ?_
    have hone : IsVec (ones [B, g.c2 * g.h2 * g.w2] : Tensor ℝ) B (g.c2 * g.h2 * g.w2) fun _ _ => 1 := ⟨rfl, fun _ _ => rfl⟩
    simp only [Conv2d.jacobian, e1, hY.dims4, Res.bind_ok]
    refine (diagEmbed_vec hone).bind fun r hr => (mjpSomeI hw.weight hx hY hr).mono fun t ht => ht.mono fun t ht => ht.congr fun b i j => ?_
    rw [show (diagonal (fun _ => 1) : Matrix (Fin (g.c2 * g.h2 * g.w2)) _ ℝ) = 1 from diagonal_one, Matrix.one_mul]
    simp only [layer, J_w]
  vjp := @fun st B X x val u U hw hB hx hv hu => by
    obtain ⟨y, e1, hY⟩ := g.getVal_w id wId bId hw hx hv
    refine run_some (q := fun s => Conv2d.vjp (g.cfg bId) (s.param wId) (biasOf bId s) x val u .input) ?_
    simp only [Conv2d.vjp, e1, hx.dims4, hY.dims4, Res.bind_ok]
    refine (Ret.assertR hu.1).bind fun _ _ => ?_
    have := (vjpI_spec (bId := bId) hw.weight hu).some
    simpa only [map_bind, layer, J_w] using this
  mjp := @fun st B X x val r A Z hw hB hx hv hr hA => by
    obtain ⟨y, e1, hY⟩ := g.getVal_w id wId bId hw hx hv
    refine run_some (q := fun s => Conv2d.mjp (g.cfg bId) (s.param wId) (biasOf bId s) x val (some A) .input) ?_
    simp only [Conv2d.mjp, e1, Res.bind_ok, layer, J_w]
    exact mjpSomeI hw.weight hx hY hA
  jTmjp := @fun st B X x val A Z fd td hw hB hx hv hA => by
    refine run_val (q := fun s => Conv2d.jTmjp (g.cfg bId) (s.param wId) (biasOf bId s) x val (some A) .input fd td false) ?_
    simp only [layer, J_w]
    exact g.jT_w id wId bId hw hx hv fd td false hA
  jTmjp_backprop := @fun st B X x val A d hw hB hx hv hA => by
    refine run_val (q := fun s => Conv2d.jTmjp (g.cfg bId) (s.param wId) (biasOf bId s) x val (some A) .input true true true) ?_
    simp only [layer, J_w]
    exact g.jT_w id wId bId hw hx hv true true true (MetricArg.diag hA)

end GConv
end NNJ
