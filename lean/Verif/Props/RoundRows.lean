import Verif.Props.RoundVjpW
import Verif.Proofs.RoundRows
import Verif.Proofs.NaN

/-!
# C84: mjp and jacobian, row by row
-/

namespace NNJ.Props
open Tensor

section
variable {β : Type} [Zero β] [One β] [Add β] [Sub β] [Mul β] [Neg β] [Div β] [NatCast β] [LT β] [DecidableLT β] [Trans β]
variable {s s' : List Nat} {n k p m : Nat} {N : Net s n s' k p} {B r : Nat} {sf : Store β} {x A : Tensor β}

/-- `round_caches` for any numbers: only shapes matter -/
theorem any_caches {f : β → ℝ} (hN : N.ReluSeq m) (h : N.Ok (sf.image f)) (hB : 0 < B) (hx : x.shape = B :: s) (q : ℝ → β) (fn : (ℝ → ℝ) → β → β) :
    ∃ y sf', (N.modIn q fn).forward x sf = (.ok y, sf') ∧ y.shape = B :: s' ∧ sf'.param = sf.param ∧
      N.Fits B fun i => (sf'.fmaps i).map (List.map Tensor.shape) := by
  have hxb : IsBatch (x.map f) B s n fun b i => f (x.data (b * n + i)) := ⟨hx, fun _ _ => rfl⟩
  have hf := h.g.forward h.w hB hxb
  rw [Net.mdl_m] at hf
  obtain ⟨t, st', ht, hb, -, hc⟩ := hf
  have key := C75_same_shapes_and_exceptions (net_code q fn N hN.noPool) (c := .forward (x.map f)) (c' := .forward x) (.forward rfl)
    (image_same f sf)
  have e1 : (Use.forward (x.map f)).run N.mod (sf.image f) = (.ok (.tensor t), st') := Prog.bind_ok ht
  rw [e1] at key
  cases hr : (Use.forward x).run (N.modIn q fn) sf with
  | mk a sf' =>
    rw [hr] at key
    cases a with
    | error e => exact key.1.elim
    | ok r' =>
      obtain ⟨y, s1, h1, h2⟩ := NaN.bind_inv (p := (N.modIn q fn).forward x) (f := fun r => pure (PyVal.tensor r)) (s := sf) (b := r') (s' := sf') hr
      injection h2 with h2 h3
      injection h2 with h2
      subst h2 h3
      have hs : SameShape t y := key.1
      refine ⟨y, s1, h1, (show t.shape = y.shape from hs).symm.trans hb.1, N.fwd_param q fn hN h1, ?_⟩
      have hfit := N.fits_of_cache hc
      have : (fun i => (s1.fmaps i).map (List.map Tensor.shape)) = fun i => (st'.fmaps i).map (List.map Tensor.shape) :=
        funext fun i => (key.2.fmaps i).symm
      rw [this]
      exact hfit

/-- C84: in any arithmetic whatsoever (nothing is assumed of `+`, `*` and `<`; `f` is any map to the reals, used only to speak of the shapes of the parameters)
row `i` of mjp with a matrix is vjp with row `i` of that matrix, bit for bit, wrt the input and wrt the weights, for networks of Linear, ReLU, Flatten, Reshape
and Sequential. -/
theorem C84_rows {f : β → ℝ} (hN : N.ReluSeq m) (h : N.Ok (sf.image f)) (hB : 0 < B) (hx : x.shape = B :: s) (q : ℝ → β) (fn : (ℝ → ℝ) → β → β) :
    ∃ y sf', (N.modIn q fn).forward x sf = (.ok y, sf') ∧ ∀ (i : Fin r) (v : Tensor β), IsRow B r k i A v →
      (∃ G g, (N.modIn q fn).mjp x none (some A) .input sf = (.ok (some G), sf') ∧ (N.modIn q fn).mjp x (some y) (some A) .input sf' = (.ok (some G), sf') ∧
        (N.modIn q fn).vjp x none v .input sf = (.ok (some g), sf') ∧ (N.modIn q fn).vjp x (some y) v .input sf' = (.ok (some g), sf') ∧ IsRow B r n i G g) ∧
      (0 < p → ∃ G g, (N.modIn q fn).mjp x none (some A) .weight sf = (.ok (some G), sf') ∧ (N.modIn q fn).mjp x (some y) (some A) .weight sf' = (.ok (some G), sf') ∧
        (N.modIn q fn).vjp x none v .weight sf = (.ok (some g), sf') ∧ (N.modIn q fn).vjp x (some y) v .weight sf' = (.ok (some g), sf') ∧ IsRow B r p i G g) := by
  obtain ⟨y, sf', hf, hy, hpar, hfit⟩ := any_caches hN h hB hx q fn
  have hS : N.Shapes (sf'.image f) := by
    have e : (sf'.image f).param = (sf.image f).param := by simp only [Store.image, hpar]
    exact N.shapes_of (fun i => by rw [e]) h.wired.shapes
  refine ⟨y, sf', hf, fun i v hv => ?_⟩
  obtain ⟨G, g, Go, go, h1, h2, h3, h4, h5, h6⟩ := N.rowR f q fn m sf' hB i.2 hN hS hfit hx hy hv
  refine ⟨⟨G, g, (N.mjp_val_none q fn hN hf A (.inl rfl)).trans h1, h1, (N.vjp_none q fn hN hf v).trans h2, h2, h3⟩, fun hp => ?_⟩
  cases Go with
  | none =>
    cases go with
    | none => exact absurd (show p = 0 from h6) (by omega)
    | some _ => exact h6.elim
  | some K =>
    cases go with
    | none => exact h6.elim
    | some t => exact ⟨K, t, (N.mjp_val_none q fn hN hf A (.inr rfl)).trans h4, h4, (N.vjpW_none q fn hN hf v).trans h5, h5, h6.2⟩

/-- C84: the rows of the Jacobian of a Sequential are its vjps with the unit vectors, bit for bit, in any arithmetic. -/
theorem C84_jacobian {l id : Nat} {c : Chain s n s' k p (l + 1)} {f : β → ℝ} (hN : c.ReluSeq m) (h : (Net.seq id c).Ok (sf.image f)) (hB : 0 < B) (hx : x.shape = B :: s)
    (q : ℝ → β) (fn : (ℝ → ℝ) → β → β) :
    ∃ y sf', ((Net.seq id c).modIn q fn).forward x sf = (.ok y, sf') ∧ ∀ (i : Fin k) (v : Tensor β), v.shape = [B, k] →
      (∀ (b : Fin B) (j : Fin k), v.get [↑b, ↑j] = if i = j then 1 else 0) →
      (∃ G g, ((Net.seq id c).modIn q fn).jacobian x (some y) .input sf' = (.ok (some G), sf') ∧
        ((Net.seq id c).modIn q fn).vjp x (some y) v .input sf' = (.ok (some g), sf') ∧ IsRow B k n i G g) ∧
      (0 < p → ∃ G g, ((Net.seq id c).modIn q fn).jacobian x (some y) .weight sf' = (.ok (some G), sf') ∧
        ((Net.seq id c).modIn q fn).vjp x (some y) v .weight sf' = (.ok (some g), sf') ∧ IsRow B k p i G g) := by
  obtain ⟨y, sf', hf, hy, -⟩ := any_caches (N := Net.seq id c) hN h hB hx q fn
  set E : Tensor β := ofFn [B, k, k] fun idx => if idx.getD 1 0 = idx.getD 2 0 then 1 else 0 with hE
  obtain ⟨y', sf'', hf', H⟩ := C84_rows (N := Net.seq id c) (A := E) (r := k) hN h hB hx q fn
  rw [hf] at hf'
  injection hf' with e1 e2
  injection e1 with e1
  subst e1 e2
  have hk : size s' = k := (Net.seq id c).sizes.2.1
  have hey : Sequential.eyeFor y = .ok E := by
    simp only [Sequential.eyeFor, hy, hk, hE]
  have hj : ∀ wrt, ((Net.seq id c).modIn q fn).jacobian x (some y) wrt sf' = ((Net.seq id c).modIn q fn).mjp x (some y) (some E) wrt sf' := by
    intro wrt
    by_cases hw : wrt = .input ∨ wrt = .weight
    · refine (Prog.bind_ok (s' := sf') (b := ()) (by simp [Prog.assert, hw])).trans ?_
      refine Eq.trans ?_ (Prog.bind_ok (s' := sf') (b := ()) (by simp [Prog.assert, hw])).symm
      refine (Prog.bind_ok (s' := sf') (b := y) rfl).trans ?_
      refine Eq.trans ?_ (Prog.bind_ok (s' := sf') (b := y) rfl).symm
      refine (Prog.bind_ok (s' := sf') (b := E) ?_).trans ?_
      · show (Sequential.eyeFor y, sf') = _
        rw [hey]
      · rfl
    · cases wrt with
      | input => exact absurd (.inl rfl) hw
      | weight => exact absurd (.inr rfl) hw
      | other => rfl
  refine ⟨y, sf', hf, fun i v hv hu => ?_⟩
  have hrow : IsRow B k k i E v := ⟨rfl, hv, fun b j => by
    rw [hu, hE, get_ofFn _ (by simp)]
    simp only [List.getD_cons_succ, List.getD_cons_zero, Fin.ext_iff]⟩
  obtain ⟨⟨G, g, -, h1, -, h2, h3⟩, hw⟩ := H i v hrow
  refine ⟨⟨G, g, (hj _).trans h1, h2, h3⟩, fun hp => ?_⟩
  obtain ⟨G, g, -, h1, -, h2, h3⟩ := hw hp
  exact ⟨G, g, (hj _).trans h1, h2, h3⟩
end

section
variable {β : Type} [Zero β] [One β] [Add β] [Sub β] [Mul β] [Neg β] [Div β] [NatCast β] [LT β] [DecidableLT β] [Trans β] (R : Rounding β)
variable {s s' : List Nat} {n k p m : Nat} {N : Net s n s' k p} {B r : Nat} {sf : Store β} {x A : Tensor β}

/-- C84: so C82 holds for mjp: for each sample and each row of the matrix the computed row is the exact product of that row with the Jacobian of a network with
slightly different weights. -/
theorem C84_mjp_errors (hone : ∀ a : β, R.val (a * 1) = R.val a) (hN : N.ReluSeq m) (h : N.Ok (sf.image R.val)) (hs : N.paramIds.Nodup) (hB : 0 < B)
    (hx : x.shape = B :: s) (q : ℝ → β) (fn : (ℝ → ℝ) → β → β) :
    ∃ y sf', (N.modIn q fn).forward x sf = (.ok y, sf') ∧ ∀ (i : Fin r) (v : Tensor β), IsRow B r k i A v →
      ∃ G, (N.modIn q fn).mjp x none (some A) .input sf = (.ok (some G), sf') ∧ G.shape = [B, r, n] ∧
        ∀ b : Fin B, ∃ w : Nat → Nat → ℝ,
          (∀ a j, |w a j - R.val ((sf.param a).data j)| ≤ ((1 + R.u) ^ (m + 1) - 1) * |R.val ((sf.param a).data j)|) ∧
          ∃ r', Returns (N.mod.vjp (x.map R.val) (some (y.map R.val)) (v.map R.val) .input) ((sf'.image R.val).withParams w) (some r') ∧ r'.shape = [B, n] ∧
            ∀ c : Fin n, R.val (G.get [↑b, ↑i, ↑c]) = r'.get [↑b, ↑c] := by
  obtain ⟨y, sf', hf, H⟩ := C84_rows (A := A) (r := r) hN h hB hx q fn
  refine ⟨y, sf', hf, fun i v hv => ?_⟩
  obtain ⟨⟨G, g, h1, -, -, h2, h3⟩, -⟩ := H i v hv
  obtain ⟨y', sf'', g', hf', -, h2', hg, h4⟩ := C82_vjp R hone hN h hs hB hx hv.2.1 q fn
  rw [hf] at hf'
  injection hf' with e1 e2
  injection e1 with e1
  subst e1 e2
  rw [h2] at h2'
  injection h2' with e1 _
  injection e1 with e1
  injection e1 with e1
  subst e1
  refine ⟨G, h1, h3.1, fun b => ?_⟩
  obtain ⟨w, hw, r', a1, a2, a3⟩ := h4 b
  refine ⟨w, hw, r', a1, a2, fun c => ?_⟩
  rw [h3.2.2 b c, get2 hg, get2 a2]
  exact a3 c
end

/-- C84: the Jacobian of a Linear layer itself is a copy of the weights, that of the same layer within a Sequential is a product with the identity.  If a weight
`W[j, c]` is infinite these differ: all other entries of column `c` are the weights in the one and NaN in the other. -/
theorem C84_infinite_weight {M : ℝ} {id lid wId i o B : Nat} {bId : Option Nat} {s : Store (NNJ.Fl M)} {x y : Tensor (NNJ.Fl M)} (hf : s.fmaps id = some [x, y])
    (hW : (s.param wId).shape = [o, i]) (hx : x.shape = [B, i]) (hy : y.shape = [B, o]) (j r : Fin o) (c : Fin i) (hr : r ≠ j)
    (hinf : (s.param wId).get [↑j, ↑c] = .inf ∨ (s.param wId).get [↑j, ↑c] = .ninf) :
    (∃ G, (Sequential.mod id true [Linear.mod lid wId bId i o]).jacobian x (some y) .input s = (.ok (some G), s) ∧ G.shape = [B, o, i] ∧
      ∀ b : Fin B, G.get [↑b, ↑r, ↑c] = .nan) ∧
    ∃ G, (Linear.mod lid wId bId i o).jacobian x (some y) .input s = (.ok (some G), s) ∧ G.shape = [B, o, i] ∧
      ∀ b : Fin B, G.get [↑b, ↑r, ↑c] = (s.param wId).get [↑r, ↑c] := by
  refine ⟨?_, ?_⟩
  · set E : Tensor (NNJ.Fl M) := ofFn [B, o, o] fun idx => if idx.getD 1 0 = idx.getD 2 0 then 1 else 0 with hE
    have hey : Sequential.eyeFor y = .ok E := by
      simp only [Sequential.eyeFor, hy, size_cons, size_nil, mul_one, hE]
    have a : Ret (einsum% "bij,jk->bik" [E, s.param wId]) fun G => G.shape = [B, o, i] ∧ ∀ (b : Fin B),
        G.get [↑b, ↑r, ↑c] = sumRange o fun l => E.get [↑b, ↑r, l] * (s.param wId).get [l, ↑c] := by
      refine ein_ret (dm [('b', B), ('i', o), ('j', o), ('k', i)]) (by simp [ShapesFit, dm, hW, hE, ofFn]) (by simp) fun G hs hg => ⟨by simpa [dm] using hs, ?_⟩
      intro b
      rw [hg _ (by simp [dm])]
      simp [sumLabels, contracted, envGet, prodList, plainProd, dm]
    obtain ⟨G, a1, a2, a3⟩ := a
    refine ⟨G, ?_, a2, fun b => ?_⟩
    · refine (Prog.bind_ok (s' := s) (b := ()) (by simp [Prog.assert])).trans ?_
      refine (Prog.bind_ok (s' := s) (b := y) rfl).trans ?_
      refine (Prog.bind_ok (s' := s) (b := E) ?_).trans ?_
      · show (Sequential.eyeFor y, s) = _
        rw [hey]
      refine (Prog.bind_ok (s' := s) (b := G) ?_).trans rfl
      refine (Prog.bind_ok (s' := s) (b := Linear.mod lid wId bId i o) rfl).trans ?_
      refine (Prog.bind_ok (fmap_some hf (k := 0) (t := x) rfl)).trans ?_
      refine (Prog.bind_ok (fmap_some hf (k := 1) (t := y) rfl)).trans ?_
      refine (Prog.bind_ok (s' := s) (b := some G) ?_).trans rfl
      show (some <$> einsum% "bij,jk->bik" [E, s.param wId], s) = _
      rw [a1]
      rfl
    · rw [a3 b]
      refine (NaN.sum_nan (f := fun l => E.get [↑b, ↑r, l] * (s.param wId).get [l, ↑c]) j.2 ?_ : NaNLaws.isNaN _)
      have e0 : E.get [↑b, ↑r, ↑j] = .fin 0 := by
        rw [hE, get_ofFn _ (by simp)]
        simp only [List.getD_cons_succ, List.getD_cons_zero]
        rw [if_neg (fun h => hr (Fin.ext h))]
        rfl
      show E.get [↑b, ↑r, ↑j] * (s.param wId).get [↑j, ↑c] = .nan
      rcases hinf with h | h <;> rw [e0, h]
      · show NNJ.Fl.signed 0 = _
        simp [NNJ.Fl.signed]
      · show NNJ.Fl.signed (-0) = _
        simp [NNJ.Fl.signed]
  · refine ⟨ofFn [B, o, i] fun idx => (⟨[1, o, i], (s.param wId).data⟩ : Tensor (NNJ.Fl M)).get (idx.set 0 0), ?_, rfl, fun b => ?_⟩
    · show (Linear.jacobian (s.param wId) (bId.map s.param) x (some y) .input, s) = _
      have hd : x.dims2 = .ok (B, i) := by simp [dims2, hx]
      simp only [Linear.jacobian, hd, bind, Except.bind, unsqueeze, hW, Nat.zero_le, if_true, List.insertIdx_zero, expandAt, List.getElem?_cons_zero, List.set]
      rfl
    · rw [get_ofFn _ (by simp), get2 hW]
      simp only [List.set]
      rw [get3 rfl, Nat.zero_mul, Nat.zero_add]

/-- weights 1 and infinity -/
example : ∃ G s', (Sequential.mod 0 true [Linear.mod 1 0 none 1 2] : Mod (NNJ.Fl 5)).jacobian (ones [1, 1]) (some (ones [1, 2])) .input
    ⟨fun _ => ⟨[2, 1], fun j => if j = 0 then .fin 1 else .inf⟩, fun _ => some [ones [1, 1], ones [1, 2]], fun _ => none, fun _ => []⟩ = (.ok (some G), s') ∧
    G.get [0, 0, 0] = .nan := by
  obtain ⟨⟨G, h1, -, h2⟩, -⟩ := C84_infinite_weight (M := 5) (id := 0) (lid := 1) (wId := 0) (bId := none) (B := 1)
    (s := ⟨fun _ => ⟨[2, 1], fun j => if j = 0 then .fin 1 else .inf⟩, fun _ => some [ones [1, 1], ones [1, 2]], fun _ => none, fun _ => []⟩) rfl rfl rfl rfl
    (1 : Fin 2) 0 (0 : Fin 1) (by decide) (.inl (by rw [get2 rfl]; rfl))
  exact ⟨G, _, h1, h2 0⟩

/-- the network of C82 in single precision, a matrix of four rows -/
example (x A v : Tensor (Bin 23)) (hx : x.shape = [3, 2]) (hv : IsRow 3 4 1 2 A v) :
    ∃ (sf' : Store (Bin 23)) (G g : Tensor (Bin 23)),
      (rvNet.modIn (Bin.near 23) (fun f a => Bin.near 23 (f a.1))).mjp x none (some A) .weight (rvStore 23) = (.ok (some G), sf') ∧
      (rvNet.modIn (Bin.near 23) (fun f a => Bin.near 23 (f a.1))).vjp x none v .weight (rvStore 23) = (.ok (some g), sf') ∧ IsRow 3 4 12 2 G g := by
  obtain ⟨y, sf', -, H⟩ := C84_rows (m := 3) (N := rvNet) (r := 4) (A := A) (by simp [rvNet, Net.ReluSeq, Chain.ReluSeq]) (rvNet_ok 23) (by norm_num) hx
    (Bin.near 23) (fun f a => Bin.near 23 (f a.1))
  obtain ⟨G, g, h1, -, h2, -, h3⟩ := (H 2 v hv).2 (by norm_num)
  exact ⟨sf', G, g, h1, h2, h3⟩

/-- the same network: the one row of its Jacobian -/
example (x : Tensor (Bin 23)) (hx : x.shape = [3, 2]) :
    ∃ (y : Tensor (Bin 23)) (sf' : Store (Bin 23)) (G g : Tensor (Bin 23)),
      (rvNet.modIn (Bin.near 23) (fun f a => Bin.near 23 (f a.1))).jacobian x (some y) .weight sf' = (.ok (some G), sf') ∧
      (rvNet.modIn (Bin.near 23) (fun f a => Bin.near 23 (f a.1))).vjp x (some y) (ones [3, 1]) .weight sf' = (.ok (some g), sf') ∧ IsRow 3 1 12 0 G g := by
  obtain ⟨y, sf', -, H⟩ := C84_jacobian (m := 3) (sf := rvStore 23) (by simp [Chain.ReluSeq, Net.ReluSeq]) (rvNet_ok 23) (B := 3) (by norm_num) hx
    (Bin.near 23) (fun f a => Bin.near 23 (f a.1))
  obtain ⟨G, g, h1, h2, h3⟩ := (H 0 (ones [3, 1]) rfl (fun b j => by
    have : j = 0 := Subsingleton.elim _ _
    subst this
    rfl)).2 (by norm_num)
  exact ⟨y, sf', G, g, h1, h2, h3⟩

/-- its mjp with four rows, with errors of at most three parts in ten million in the weights -/
example (x A v : Tensor (Bin 23)) (hx : x.shape = [3, 2]) (hv : IsRow 3 4 1 2 A v) :
    ∃ (y : Tensor (Bin 23)) (sf' : Store (Bin 23)) (G : Tensor (Bin 23)),
      (rvNet.modIn (Bin.near 23) (fun f a => Bin.near 23 (f a.1))).mjp x none (some A) .input (rvStore 23) = (.ok (some G), sf') ∧
      ∀ b : Fin 3, ∃ w : Nat → Nat → ℝ, (∀ i j, |w i j - (((rvStore 23).param i).data j).1| ≤ 3 / 10000000 * |(((rvStore 23).param i).data j).1|) ∧
        ∃ r', Returns (rvNet.mod.vjp (x.map Subtype.val) (some (y.map Subtype.val)) (v.map Subtype.val) .input) ((sf'.image Subtype.val).withParams w) (some r') ∧
          ∀ c : Fin 2, (G.get [↑b, 2, ↑c]).1 = r'.get [↑b, ↑c] := by
  obtain ⟨y, sf', -, H⟩ := C84_mjp_errors (m := 3) (N := rvNet) (r := 4) (A := A) (Bin.rounding 23) Bin.mul_one' (by simp [rvNet, Net.ReluSeq, Chain.ReluSeq]) (rvNet_ok 23)
    (by simp [rvNet, Net.paramIds, Chain.paramIds]) (by norm_num) hx (Bin.near 23) (fun f a => Bin.near 23 (f a.1))
  obtain ⟨G, h1, -, h2⟩ := H 2 v hv
  refine ⟨y, sf', G, h1, fun b => ?_⟩
  obtain ⟨w, hw, r', e1, -, e3⟩ := h2 b
  refine ⟨w, fun i j => (hw i j).trans (mul_le_mul_of_nonneg_right ?_ (abs_nonneg _)), r', e1, e3⟩
  simp only [Bin.rounding]
  norm_num

/-- every matrix has such a row -/
example : IsRow 3 4 1 2 (⟨[3, 4, 1], fun j => (j : ℝ)⟩) ⟨[3, 1], fun j => (j * 4 + 2 : ℝ)⟩ :=
  ⟨rfl, rfl, fun b c => by
    rw [get3 rfl, get2 rfl]
    have : c = 0 := Subsingleton.elim _ _
    subst this
    simp⟩

end NNJ.Props
