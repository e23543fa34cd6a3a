import Verif.Proofs.Broadcast
import Verif.Spec.Example
import Verif.Props.Custom

/-!
# C60: vectors of other shapes

What `vjp` with respect to the input does with a vector that does not have one row per sample and one column per output.
-/

namespace NNJ.Props
open NNJ Matrix Tensor

variable {s s' : List Nat} {n k p : Nat} {N : Net s n s' k p} {st : Store ℝ} {B R : Nat} {X : Fin B → Fin n → ℝ} {x u : Tensor ℝ}
  {U : Fin R → Fin k → ℝ}

private theorem rowOr0_lt {R r : Nat} (h : 0 < R) (h' : r < R) : rowOr0 h r = ⟨r, h'⟩ := by rw [rowOr0, dif_pos h']

private theorem isVec_of_eq {t : Tensor ℝ} {T T' m : Nat} (e : T = T') {F : Nat → Fin m → ℝ} (h : IsVec t T m fun r => F r) :
    IsVec t T' m fun r => F r := e ▸ h

/-- C60: networks of Linear, elementwise layers, Flatten and Reshape.  A vector with a single row stands for that row repeated for every sample; several rows
for a single sample are all multiplied with its Jacobian.  The result has as many rows as the longer of the two, except that a vector with a single row
gives a single row if no layer is elementwise. -/
theorem C60_rows (h : N.Ok st) (hp : N.plain = true) (hB : 0 < B) (hR : 0 < R) (hx : IsBatch x B s n X) (hu : IsVec u R k U)
    (hRB : R = 1 ∨ B = 1 ∨ R = B) :
    ∃ jt t, ∃ J : Fin B → Matrix (Fin k) (Fin n) ℝ, Returns (N.mod.jacobian x none .input) st (some jt) ∧ IsMat jt B k n J ∧
      Returns (N.mod.vjp x none u .input) st (some t) ∧
      IsVec t (if N.hasAct then max R B else R) n fun r => U (rowOr0 hR r) ᵥ* J (rowOr0 hB r) := by
  obtain ⟨jt, hj, hJ⟩ := h.jacI hB hx
  have hr := Net.vjpRows N h.1 hp
  have hT : 0 < max R B := lt_max_of_lt_left hR
  have key : ∀ (f : Bool) (V : Fin (max R B) → Fin k → ℝ) (β : Fin (max R B) → Fin B),
      ((B = max R B ∧ ∀ r, (β r : Nat) = r) ∨ (B = 1 ∧ f = true)) → Loose f u (max R B) k V →
      ∃ t, Returns (N.mod.vjp x none u .input) st (some t) ∧ Loose (f || N.hasAct) t (max R B) n fun r => V r ᵥ* N.J st (X (β r)) := by
    intro f V β hf hu
    have := (hr.fit β h.w hB hT hf hx hu).2
    rw [Net.mdl_m, Net.mdl_J] at this
    exact this.returnsSome
  refine ⟨jt, ?_⟩
  by_cases h1 : R = 1
  · subst h1
    have hm : max 1 B = B := max_eq_right hB
    obtain ⟨t, ht, hL⟩ := key false (fun _ => U 0) (fun r => ⟨r, by have := r.2; omega⟩) (.inl ⟨hm.symm, fun _ => rfl⟩)
      ⟨U 0, hu.congr fun b i => by rw [Subsingleton.elim b 0], fun _ => rfl⟩
    refine ⟨t, _, hj, hJ, ht, ?_⟩
    rw [Bool.false_or] at hL
    refine isVec_of_eq (F := fun r => U (rowOr0 hR r) ᵥ* N.J st (X (rowOr0 hB r))) (T := if N.hasAct then max 1 B else 1) rfl ?_
    cases hA : N.hasAct with
    | true =>
      rw [hA] at hL
      refine isVec_of_eq (F := fun r => U (rowOr0 hR r) ᵥ* N.J st (X (rowOr0 hB r))) (T := max 1 B) (if_pos rfl).symm (IsVec.congr (X := fun r => U 0 ᵥ* N.J st (X ⟨r, by have := r.2; omega⟩)) hL fun r i => ?_)
      rw [rowOr0_lt hB (by have := r.2; omega), Subsingleton.elim (rowOr0 hR (r : Nat)) 0]
    | false =>
      rw [hA] at hL
      obtain ⟨V0, hV, e⟩ := hL
      refine isVec_of_eq (F := fun r => U (rowOr0 hR r) ᵥ* N.J st (X (rowOr0 hB r))) (T := 1) (if_neg (by simp)).symm (IsVec.congr hV fun r i => ?_)
      rw [← e ⟨0, hT⟩, Subsingleton.elim (rowOr0 hR (r : Nat)) 0, show (r : Nat) = 0 by omega, rowOr0_lt hB hB]
  · have hm : max R B = R := by omega
    obtain ⟨t, ht, hL⟩ := key true (fun r => U ⟨r, by have := r.2; omega⟩) (fun r => rowOr0 hB r) (by
      rcases hRB with h | rfl | rfl
      · exact absurd h h1
      · exact .inr ⟨rfl, rfl⟩
      · refine .inl ⟨hm.symm, fun r => ?_⟩
        have := r.2
        simp only [rowOr0]; split_ifs <;> simp <;> omega) (by
      refine ⟨by rw [hu.1, hm], fun b i => ?_⟩
      exact hu.2 ⟨b, by have := b.2; omega⟩ i)
    refine ⟨t, _, hj, hJ, ht, ?_⟩
    have e : (if N.hasAct then max R B else R) = max R B := by rw [hm, ite_self]
    have hL : IsVec t (max R B) n _ := hL
    refine isVec_of_eq (F := fun r => U (rowOr0 hR r) ᵥ* N.J st (X (rowOr0 hB r))) e.symm (IsVec.congr hL fun r i => ?_)
    rw [rowOr0_lt hR (by have := r.2; omega)]

/-- C60: in such a network, several rows that are not as many as the samples raise if some layer is elementwise; otherwise (only Linear, Flatten and Reshape)
each row is multiplied with the Jacobian, which is the same for all samples. -/
theorem C60_mismatch (h : N.Ok st) (hp : N.plain = true) (hB : 0 < B) (hx : IsBatch x B s n X) (hu : IsVec u R k U)
    (h1 : R ≠ 1) (h2 : B ≠ 1) (h3 : R ≠ B) :
    (N.hasAct = true → (N.mod.vjp x none u .input st).1 = .error .shape) ∧
    (N.hasAct = false → ∃ jt t, ∃ J : Fin B → Matrix (Fin k) (Fin n) ℝ, Returns (N.mod.jacobian x none .input) st (some jt) ∧ IsMat jt B k n J ∧
      Returns (N.mod.vjp x none u .input) st (some t) ∧ ∀ b, IsVec t R n fun r => U r ᵥ* J b) := by
  have hb := (Net.vjpRows N h.1 hp).bad h.w hB h1 h2 h3 hx hu
  constructor
  · intro ha
    rw [ha] at hb
    have := hb.2
    rw [Net.mdl_m] at this
    exact this
  · intro ha
    rw [ha] at hb
    have hb : ∀ b, N.mdl.Back st X (fun val => N.mdl.m.vjp x val u .input) (IsSome fun t => IsVec t R n fun r => U r ᵥ* N.mdl.J st X b) := hb
    obtain ⟨jt, hj, hJ⟩ := h.jacI hB hx
    have key : ∀ b, ∃ t, Returns (N.mod.vjp x none u .input) st (some t) ∧ IsVec t R n fun r => U r ᵥ* N.J st (X b) := by
      intro b
      have := (hb b).2
      rw [Net.mdl_m, Net.mdl_J] at this
      exact this.returnsSome
    obtain ⟨t, ht, _⟩ := key ⟨0, hB⟩
    refine ⟨jt, t, _, hj, hJ, ht, fun b => ?_⟩
    obtain ⟨t', ht', hV⟩ := key b
    have : some t = some t' := by
      have e : (Except.ok (some t) : Res _) = .ok (some t') := ht.symm.trans ht'
      exact Except.ok.inj e
    cases this
    exact hV

/-- C60: Linear and vectors with another number of columns: a single column stands for that column repeated, a layer with one output multiplies its row of weights with the
sum of the entries, anything else raises. -/
theorem C60_width (id wId : Nat) (bId : Option Nat) {i o w : Nat} (hw0 : 0 < w) (hW : (st.param wId).shape = [o, i]) {V : Fin R → Fin w → ℝ}
    (hu : IsVec u R w V) :
    (w ≠ o → w ≠ 1 → o ≠ 1 → ((Linear.mod id wId bId i o).vjp x none u .input st).1 = .error .shape) ∧
    (w = 1 → 0 < o → ∃ t, Returns ((Linear.mod id wId bId i o).vjp x none u .input) st (some t) ∧
      IsVec t R i fun r j => V r ⟨0, hw0⟩ * ∑ a : Fin o, (st.param wId).get [a, j]) ∧
    (o = 1 → ∃ t, Returns ((Linear.mod id wId bId i o).vjp x none u .input) st (some t) ∧
      IsVec t R i fun r j => (∑ c, V r c) * (st.param wId).get [0, j]) := by
  have hv : ∀ val, (Linear.mod id wId bId i o).vjp x val u .input st = (some <$> einsum% "bj,jk->bk" [u, st.param wId], st) := fun _ => rfl
  have hi' : ∀ j : Fin i, (if i = 1 then 0 else (j : Nat)) = j := fun j => by split_ifs <;> omega
  have hR' : ∀ r : Fin R, (if R = 1 then 0 else (r : Nat)) = r := fun r => by split_ifs <;> omega
  refine ⟨fun h1 h2 h3 => ?_, fun h1 ho => ?_, fun h1 => ?_⟩
  · rw [hv, ein_bj_jk_bad hu hW h1 h2 h3]; rfl
  · subst h1
    obtain ⟨t, ht, hs, hg⟩ := ein_bj_jk_gen hu hW (by omega)
    refine ⟨t, ?_, hs, fun r j => ?_⟩
    · simp only [Returns, hv, ht, Res.map_ok]
    · dsimp only
      rw [hg r j, if_pos rfl, Finset.mul_sum, Finset.sum_range]
      refine Finset.sum_congr rfl fun c _ => ?_
      have := hu.2 r ⟨0, hw0⟩
      rw [if_pos rfl, show (if o = 1 then 0 else (c : Nat)) = c by split_ifs <;> omega, ← this]
  · subst h1
    obtain ⟨t, ht, hs, hg⟩ := ein_bj_jk_gen hu hW (by omega)
    refine ⟨t, ?_, hs, fun r j => ?_⟩
    · simp only [Returns, hv, ht, Res.map_ok]
    · dsimp only
      rw [hg r j, Finset.sum_mul]
      rw [show (if w = 1 then 1 else w) = w by split_ifs <;> omega, Finset.sum_range]
      refine Finset.sum_congr rfl fun c _ => ?_
      rw [if_pos rfl, show (if w = 1 then 0 else (c : Nat)) = c by split_ifs <;> omega, hu.2]

/-- C60: Conv2d, MaxPool2d and Upsample accept only vectors with one row per sample and one column per output. -/
theorem C60_strict (hB : 0 < B) :
    (∀ {id wId bId} {g : ConvDims} {X x}, (Net.conv id wId bId g).Ok st → IsBatch x B [g.c1, g.h1, g.w1] (g.c1 * g.h1 * g.w1) X →
      u.shape ≠ [B, g.c2 * g.h2 * g.w2] → ∀ wrt, ((Net.conv id wId bId g).mod.vjp x none u wrt st).1 = .error .assertion) ∧
    (∀ {id} {g : PoolDims} {X x}, IsBatch x B [g.c, g.h, g.w] (g.c * g.h * g.w) X → u.shape ≠ [B, g.c * g.h2 * g.w2] →
      ((Net.maxpool id g).mod.vjp x none u .input st).1 = .error .assertion) ∧
    (∀ {id c h w r hc hh hw hr X x}, IsBatch x B [c, h, w] (c * h * w) X → u.shape ≠ [B, c * (h * r) * (w * r)] →
      ((Net.upsample id c h w r hc hh hw hr).mod.vjp x none u .input st).1 = .error .assertion) := by
  refine ⟨fun {id wId bId g X x} h hx hu wrt => ?_, fun {id g X x} hx hu => ?_, fun {id c h w r hc hh hw hr X x} hx hu => ?_⟩
  · obtain ⟨t, ht, hT⟩ := h.forward hB hx
    have ht : Conv2d.forward (g.cfg bId) (st.param wId) (if (g.cfg bId).hasBias then some (st.param (bId.getD 0)) else none) x = .ok t := ht
    show Conv2d.vjp (g.cfg bId) (st.param wId) (if (g.cfg bId).hasBias then some (st.param (bId.getD 0)) else none) x none u wrt = _
    simp only [Conv2d.vjp, Conv2d.getVal, ht, Res.bind_ok, hx.dims4, hT.dims4]
    rw [assertR, if_neg (by simpa using hu)]
    rfl
  · obtain ⟨t, s', ht, hT, _, idx, hidx, _⟩ := MaxPool2d.forward_run (id := id) (s := st) g.fits.toPoolSizes hx
    have ht : MaxPool2d.getVal id g.a x none st = (.ok t, s') := ht
    have hi : MaxPool2d.getIdx id s' = (.ok idx, s') := by simp only [MaxPool2d.getIdx, hidx]
    show (MaxPool2d.vjp id g.a x none u .input st).1 = _
    simp only [MaxPool2d.vjp]
    rw [Prog.bind_ok ht, Prog.bind_ok hi]
    have : MaxPool2d.vjpBody x t u idx = .error .assertion := by
      simp only [MaxPool2d.vjpBody, Res.bind_ok, hx.dims4, hT.dims4]
      rw [assertR, if_pos (by simp), Res.bind_ok, assertR, if_neg (by simpa using hu)]
      rfl
    rw [this]
    rfl
  · have h : (Net.upsample id c h w r hc hh hw hr).Ok st := ⟨by simp [Net.ids], by simp [Net.Wired]⟩
    obtain ⟨t, ht, hT⟩ := h.forward hB hx
    have ht : Upsample.forward ⟨r, 1⟩ x = .ok t := ht
    show Upsample.vjp ⟨r, 1⟩ x none u .input = _
    simp only [Upsample.vjp, Upsample.getVal, ht, Res.bind_ok, hx.dims4, hT.dims4]
    rw [assertR, if_pos (by simp), Res.bind_ok, assertR, if_neg (by simpa using hu)]
    rfl

/-- C60: Flatten and Reshape return any vector unchanged; Linear and the elementwise layers raise for a vector that is not two-dimensional. -/
theorem C60_rank (hB : 0 < B) :
    (∀ {id s n hs hn}, Returns ((Net.flatten id s n hs hn).mod.vjp x none u .input) st (some u)) ∧
    (∀ {id s dims n hs hd hn z hz}, Returns ((Net.reshape id s dims n hs hd hn z hz).mod.vjp x none u .input) st (some u)) ∧
    (u.shape.length ≠ 2 →
      (∀ {id wId bId i o hi ho}, ((Net.linear id wId bId i o hi ho).mod.vjp x none u .input st).1 = .error .shape) ∧
      (∀ {a id s n hs hn X x}, IsBatch x B s n X → ((Net.act a id s n hs hn).mod.vjp x none u .input st).1 = .error .shape)) := by
  refine ⟨rfl, rfl, fun hu => ⟨?_, ?_⟩⟩
  · intro id wId bId i o hi ho
    show (some <$> einsum% "bj,jk->bk" [u, st.param wId] : Res _) = _
    rw [einsum_rank (by simp [ranksOk]; intro h; exact absurd h.symm hu)]
    rfl
  · intro a id s n hs hn X x hx
    obtain ⟨fwd, jac, ha, hd⟩ := act_diag a hs
    obtain ⟨d, hd, hD⟩ := (hd (val := none) hB hx (by simp)).exists_some
    show (a.layer.vjp x none u .input) = _
    simp only [ha, AbstractDiagonal.defaults, AbstractDiagonal.vjp, hd, Res.bind_ok]
    rw [einsum_rank (by simp [ranksOk]; intro h; exact absurd h.symm hu)]
    rfl

/-! Cases.  `exCube` has an elementwise layer between two Linears. -/

/-- one row for two samples: two rows come back -/
example : ∃ jt t, ∃ J : Fin 2 → Matrix (Fin 2) (Fin 2) ℝ, Returns (exCube.mod.jacobian exInput none .input) exStore (some jt) ∧ IsMat jt 2 2 2 J ∧
    Returns (exCube.mod.vjp exInput none ⟨[1, 2], fun i => i⟩ .input) exStore (some t) ∧ t.shape = [2, 2] := by
  obtain ⟨jt, t, J, h1, h2, h3, h4⟩ := C60_rows exCube_ok (by simp [exCube, Net.plain, Chain.plain]) two_pos one_pos exInput_isBatch
    (u := ⟨[1, 2], fun i => i⟩) (R := 1) (U := fun _ i => i) ⟨rfl, fun b i => by rw [Subsingleton.elim b 0]; simp [Tensor.get, ravel]⟩ (.inl rfl)
  exact ⟨jt, t, J, h1, h2, h3, h4.1⟩

/-- three rows for two samples raise -/
example : (exCube.mod.vjp exInput none ⟨[3, 2], fun _ => 1⟩ .input exStore).1 = .error .shape :=
  (C60_mismatch exCube_ok (by simp [exCube, Net.plain, Chain.plain]) two_pos exInput_isBatch (u := ⟨[3, 2], fun _ => 1⟩) (R := 3) (U := fun _ _ => 1)
    ⟨rfl, fun _ _ => rfl⟩ (by norm_num) (by norm_num) (by norm_num)).1 (by simp [exCube, Net.hasAct, Chain.hasAct])

/-- but not without an elementwise layer -/
example : ∃ t, Returns ((Net.linear 1 0 (some 1) 2 3 two_pos three_pos).mod.vjp exInput none ⟨[4, 3], fun _ => 1⟩ .input) exStore (some t) ∧ t.shape = [4, 2] := by
  have hok : (Net.linear 1 0 (some 1) 2 3 two_pos three_pos).Ok exStore := ⟨by simp [Net.ids], by simp [Net.Wired, exStore]⟩
  obtain ⟨jt, t, J, h1, h2, h3, h4⟩ := (C60_mismatch hok (by simp [Net.plain]) two_pos exInput_isBatch (u := ⟨[4, 3], fun _ => 1⟩) (R := 4) (U := fun _ _ => 1)
    ⟨rfl, fun _ _ => rfl⟩ (by norm_num) (by norm_num) (by norm_num)).2 (by simp [Net.hasAct])
  exact ⟨t, h3, (h4 0).1⟩

/-- Linear(2, 3) with vectors of width 2, 1; Linear(5, 1) with vectors of width 2 -/
example : ((Linear.mod 1 0 (some 1) 2 3).vjp exInput none ⟨[2, 2], fun _ => 1⟩ .input exStore).1 = .error .shape ∧
    (∃ t, Returns ((Linear.mod 1 0 (some 1) 2 3).vjp exInput none ⟨[2, 1], fun _ => 1⟩ .input) exStore (some t) ∧ t.shape = [2, 2]) ∧
    ∃ t, Returns ((Linear.mod 8 3 (some 4) 5 1).vjp exInput none ⟨[2, 2], fun _ => 1⟩ .input) exStore (some t) ∧ t.shape = [2, 5] := by
  refine ⟨?_, ?_, ?_⟩
  · exact (C60_width 1 0 (some 1) (w := 2) two_pos (st := exStore) rfl (V := fun _ _ => 1) ⟨rfl, fun _ _ => rfl⟩).1 (by norm_num) (by norm_num) (by norm_num)
  · obtain ⟨t, h1, h2⟩ := (C60_width (x := exInput) 1 0 (some 1) (w := 1) one_pos (st := exStore) (o := 3) rfl (u := ⟨[2, 1], fun _ => 1⟩) (R := 2) (V := fun _ _ => 1)
      ⟨rfl, fun _ _ => rfl⟩).2.1 rfl (by norm_num)
    exact ⟨t, h1, h2.1⟩
  · obtain ⟨t, h1, h2⟩ := (C60_width (x := exInput) 8 3 (some 4) (w := 2) two_pos (st := exStore) (o := 1) rfl (u := ⟨[2, 2], fun _ => 1⟩) (R := 2) (V := fun _ _ => 1)
      ⟨rfl, fun _ _ => rfl⟩).2.2 rfl
    exact ⟨t, h1, h2.1⟩

/-- a single row for two images is not accepted by the convolution of `exImg` -/
example : ((Net.conv 1 0 (some 1) exConv).mod.vjp exImgInput none ⟨[1, 12], fun _ => 1⟩ .input exImgStore).1 = .error .assertion :=
  (C60_strict two_pos).1 ⟨by simp [Net.ids], by simp [Net.Wired, exImgStore, exConv]⟩ exImgInput_isBatch (by simp) _

example : ((Net.act .tanh 0 [2] 2 rfl two_pos).mod.vjp exInput none ⟨[2, 1, 2], fun _ => 1⟩ .input exStore).1 = .error .shape :=
  ((C60_rank (x := exInput) (u := ⟨[2, 1, 2], fun _ => 1⟩) two_pos).2.2 (by simp)).2 exInput_isBatch

end NNJ.Props
