import Verif.Proofs.WrongShape
import Verif.Spec.Example

/-!
# C70: `nnj.Linear` with respect to its weights, arguments of other shapes

`B` samples of `i` features, `o` outputs; `o * i` weights, and `o` more with a bias.
-/

namespace NNJ.Props
open NNJ Matrix Tensor

variable {st : Store ℝ} {id wId bId i o B R w m : Nat} {hi : 0 < i} {ho : 0 < o} {X : Fin B → Fin i → ℝ} {x u M : Tensor ℝ} {b? : Option Nat}

private theorem valOk {hi : 0 < i} {ho : 0 < o} (h : (Net.linear id wId b? i o hi ho).Ok st) (hx : IsBatch x B [i] i X) :
    ∃ v, Linear.getVal (st.param wId) (b?.map st.param) x none = .ok v ∧ v.shape = [B, o] := by
  obtain ⟨v, h1, h2⟩ := Linear.forward_ret (bias := b?.map st.param) h.2.1 ho (by
    intro t ht
    cases b? with
    | none => simp at ht
    | some c =>
      simp only [Option.map_some, Option.mem_def, Option.some.injEq] at ht
      exact ht ▸ h.2.2 c rfl) hx
  exact ⟨v, h1, h2.1⟩

private theorem pair_lt {p q : Nat} (a : Fin p) (b : Fin q) : (a : Nat) * q + b < p * q := by
  calc (a : Nat) * q + b < a * q + q := by omega
    _ = (a + 1) * q := by ring
    _ ≤ p * q := Nat.mul_le_mul_right _ a.2

private theorem size3 (a b c : Nat) : size [a, b, c] = a * (b * c) := by simp [size_cons, size_nil]

/-- C70: `jvp` with respect to the weights accepts, among two-dimensional vectors, only those with one row per sample and one column per weight. -/
theorem C70_jvp (h : (Net.linear id wId b? i o hi ho).Ok st) (hx : IsBatch x B [i] i X) (hu : u.shape = [R, w]) :
    (w ≠ o * i + biasLen b? o → ((Net.linear id wId b? i o hi ho).mod.jvp x none u .weight st).1 = .error .assertion) ∧
    (w = o * i + biasLen b? o → R ≠ B → ((Net.linear id wId b? i o hi ho).mod.jvp x none u .weight st).1 = .error .shape) := by
  obtain ⟨v, hv, hs⟩ := valOk h hx
  have hx2 : x.dims2 = .ok (B, i) := by simp [dims2, hx.1]
  have hv1 : v.dim 1 = .ok o := by simp [dim, hs]
  have hu1 : u.dim 1 = .ok w := by simp [dim, hu]
  have hoi : 0 < o * i := Nat.mul_pos ho hi
  constructor
  · intro hw
    show Linear.jvp (st.param wId) (b?.map st.param) (o * i + biasLen b? o) x none u .weight = _
    simp only [Linear.jvp, hx2, Res.bind_ok, hv, hv1, hu1]
    rw [assertR, if_neg (by simpa using fun e => hw e.symm)]
    rfl
  · intro hw hR
    show Linear.jvp (st.param wId) (b?.map st.param) (o * i + biasLen b? o) x none u .weight = _
    simp only [Linear.jvp, hx2, Res.bind_ok, hv, hv1, hu1]
    rw [assertR, if_pos (by simpa using hw.symm), Res.bind_ok]
    have hne : B * (o * i) ≠ R * (o * i) := fun e => hR (Nat.eq_of_mul_eq_mul_right hoi e).symm
    cases b? with
    | none =>
      have hw : w = o * i := hw
      have : u.reshape [B, o, i] = .error .shape := by
        rw [reshape, if_neg]
        rw [numel, hu, size3, hw]
        simpa [size_cons, size_nil] using hne
      simp only [Option.map_none, this]
      rfl
    | some c =>
      have hw : w = o * i + o := hw
      obtain ⟨v', e1, h1⟩ := show Ret (u.slice 1 0 (o * i)) (fun r => r.shape = [R, o * i]) by
        simp only [slice, hu, List.getElem?_cons_succ, List.getElem?_cons_zero, List.set]
        rw [show min 0 w = 0 by omega, show min (o * i) w = o * i by omega]
        exact Ret.ok rfl
      have : v'.reshape [B, o, i] = .error .shape := by
        rw [reshape, if_neg]
        rw [numel, h1, size3]
        simpa [size_cons, size_nil] using hne
      simp only [Option.map_some, e1, Res.bind_ok, this]
      rfl

/-- C70: `jmp` with respect to the weights.  A matrix with another number of rows than weights is refused.  Without a bias, a matrix for `R` samples with `m` columns is
read as one for `B` samples with `R * m / B` columns, its numbers in order, if that is a whole number; otherwise it is refused. -/
theorem C70_jmp (hB : 0 < B) (h : (Net.linear id wId b? i o hi ho).Ok st) (hx : IsBatch x B [i] i X) (hM : M.shape = [R, w, m]) :
    (w ≠ o * i + biasLen b? o → ((Net.linear id wId b? i o hi ho).mod.jmp x none (some M) .weight st).1 = .error .assertion) ∧
    (b? = none → w = o * i → B ∣ R * m →
      (Net.linear id wId b? i o hi ho).mod.jmp x none (some M) .weight st =
        (Net.linear id wId b? i o hi ho).mod.jmp x none (some ⟨[B, o * i, R * m / B], M.data⟩) .weight st) ∧
    (b? = none → w = o * i → ¬ B ∣ R * m → ((Net.linear id wId b? i o hi ho).mod.jmp x none (some M) .weight st).1 = .error .shape) := by
  obtain ⟨v, hv, hs⟩ := valOk h hx
  have hx2 : x.dims2 = .ok (B, i) := by simp [dims2, hx.1]
  have hv1 : v.dim 1 = .ok o := by simp [dim, hs]
  have hu1 : M.dim 1 = .ok w := by simp [dim, hM]
  have hoi : 0 < o * i := Nat.mul_pos ho hi
  have hk : size [B, o, i] * size [] ≠ 0 := by
    rw [size3, size_nil, mul_one]
    exact Nat.ne_of_gt (Nat.mul_pos hB hoi)
  have hdvd : B * (o * i) ∣ R * (o * i * m) ↔ B ∣ R * m := by
    rw [show R * (o * i * m) = R * m * (o * i) by ring]
    exact Nat.mul_dvd_mul_iff_right hoi
  refine ⟨fun hw => ?_, fun hb hw hd => ?_, fun hb hw hd => ?_⟩
  · show Linear.jmp (st.param wId) (b?.map st.param) (o * i + biasLen b? o) x none (some M) .weight = _
    simp only [Linear.jmp, hx2, Res.bind_ok, hv, hv1, hu1]
    rw [assertR, if_neg (by simpa using fun e => hw e.symm)]
    rfl
  · subst hb hw
    refine Prod.ext ?_ rfl
    show Linear.jmp (st.param wId) none (o * i + 0) x none (some M) .weight =
      Linear.jmp (st.param wId) none (o * i + 0) x none (some ⟨[B, o * i, R * m / B], M.data⟩) .weight
    have hu2 : (⟨[B, o * i, R * m / B], M.data⟩ : Tensor ℝ).dim 1 = .ok (o * i) := by simp [dim]
    have hv : Linear.getVal (st.param wId) none x none = .ok v := hv
    simp only [Linear.jmp, hx2, Res.bind_ok, hv, hv1, hu1, hu2]
    have e : M.reshapeInfer [B, o, i] [] = (⟨[B, o * i, R * m / B], M.data⟩ : Tensor ℝ).reshapeInfer [B, o, i] [] := by
      obtain ⟨q, hq⟩ := hd
      have hn : M.numel = B * (o * i) * q := by
        rw [numel, hM, size3, show R * (o * i * m) = R * m * (o * i) by ring, hq]; ring
      have hn' : (⟨[B, o * i, R * m / B], M.data⟩ : Tensor ℝ).numel = B * (o * i) * q := by
        rw [numel, size3, hq, Nat.mul_div_cancel_left _ hB]; ring
      simp only [reshapeInfer, hn, hn']
    rw [e]
  · subst hb hw
    show Linear.jmp (st.param wId) none (o * i + 0) x none (some M) .weight = _
    have hv : Linear.getVal (st.param wId) none x none = .ok v := hv
    simp only [Linear.jmp, hx2, Res.bind_ok, hv, hv1, hu1]
    have e : M.reshapeInfer [B, o, i] [] = .error .shape := by
      have hn : ¬ M.numel % (size [B, o, i] * size []) = 0 := by
        rw [numel, hM, size3, size3, size_nil, mul_one, ← Nat.dvd_iff_mod_eq_zero, hdvd]
        exact hd
      simp only [reshapeInfer]
      rw [if_neg hk, if_neg hn]
    rw [assertR, if_pos (by simp), Res.bind_ok, e]
    rfl

/-- C70: `jmp` with respect to weights and bias.  A matrix for another number of samples than given is refused, except for two cases: one matrix of as many columns
as there are samples, and several matrices of a single column for one sample.  There the result is not the product of any of the matrices with any of the Jacobians:
the weight part mixes the columns (samples), and the bias part is added to each of them. -/
theorem C70_jmp_bias (hB : 0 < B) (hR : 0 < R) (hm : 0 < m) (h : (Net.linear id wId (some bId) i o hi ho).Ok st) (hx : IsBatch x B [i] i X) (hRB : R ≠ B)
    (hM : M.shape = [R, o * i + o, m]) :
    (R = 1 → m = B → ∃ t, Returns ((Net.linear id wId (some bId) i o hi ho).mod.jmp x none (some M) .weight) st (some t) ∧
      IsMat t B o B fun b k q => ∑ j : Fin i, M.data ((b * o + k) * i + j) * X b j + M.get [0, o * i + k, q]) ∧
    (B = 1 → m = 1 → ∃ t, Returns ((Net.linear id wId (some bId) i o hi ho).mod.jmp x none (some M) .weight) st (some t) ∧
      IsMat t R o R fun r k q => ∑ j : Fin i, M.get [((k * i + j) * R + q) / (o * i), ((k * i + j) * R + q) % (o * i), 0] * X ⟨0, hB⟩ j + M.get [(r : Nat), o * i + k, 0]) ∧
    (¬ (R = 1 ∧ m = B) → ¬ (B = 1 ∧ m = 1) → ((Net.linear id wId (some bId) i o hi ho).mod.jmp x none (some M) .weight st).1 = .error .shape) := by
  obtain ⟨v, hv, hs⟩ := valOk h hx
  have hx2 : x.dims2 = .ok (B, i) := by simp [dims2, hx.1]
  have hv1 : v.dim 1 = .ok o := by simp [dim, hs]
  have hu1 : M.dim 1 = .ok (o * i + o) := by simp [dim, hM]
  have hoi : 0 < o * i := Nat.mul_pos ho hi
  have hxv := isVec_iff_batch.2 hx
  have hMM : IsMat M R (o * i + o) m fun r c q => M.get [(r : Nat), (c : Nat), (q : Nat)] := ⟨hM, fun _ _ _ => rfl⟩
  obtain ⟨a, ea, ha⟩ := slice_rows (lo := 0) (q := o * i) hMM (by omega)
  obtain ⟨c, ec, hc⟩ := slice_rows (lo := o * i) (q := o) hMM (by omega)
  rw [Nat.zero_add] at ea
  have hcall : (Net.linear id wId (some bId) i o hi ho).mod.jmp x none (some M) .weight st =
      ((do
        let m ← a.reshapeInfer [B, o, i] []
        let r ← einsum% "bkji,bj->bki" [m, x]
        some <$> r.add c), st) := by
    refine Prod.ext ?_ rfl
    show Linear.jmp (st.param wId) (some (st.param bId)) (o * i + o) x none (some M) .weight = _
    have hv : Linear.getVal (st.param wId) (some (st.param bId)) x none = .ok v := hv
    simp only [Linear.jmp, hx2, Res.bind_ok, hv, hv1, hu1, ea, ec]
    rw [assertR, if_pos (by simp), Res.bind_ok]
  have hdat : ∀ n, n < R * (o * i * m) → a.data n = M.get [n / (o * i * m), n % (o * i * m) / m, n % (o * i * m) % m] := by
    intro n hn
    have hp : 0 < o * i * m := Nat.mul_pos hoi hm
    have h1 : n / (o * i * m) < R := Nat.div_lt_of_lt_mul (by rwa [Nat.mul_comm])
    have h2 : n % (o * i * m) / m < o * i := Nat.div_lt_of_lt_mul (by rw [Nat.mul_comm m]; exact Nat.mod_lt _ hp)
    have h3 : n % (o * i * m) % m < m := Nat.mod_lt _ hm
    have := ha.2 ⟨_, h1⟩ ⟨_, h2⟩ ⟨_, h3⟩
    rw [get3 ha.1] at this
    simp only [Nat.zero_add] at this
    rw [← this, Nat.div_add_mod', Nat.div_add_mod']
  have hn : a.numel = R * (o * i * m) := by rw [numel, ha.1, size3]
  have hret : ∀ {t}, (do
        let m ← a.reshapeInfer [B, o, i] []
        let r ← einsum% "bkji,bj->bki" [m, x]
        some <$> r.add c) = .ok (some t) → Returns ((Net.linear id wId (some bId) i o hi ho).mod.jmp x none (some M) .weight) st (some t) := by
    intro t ht
    show ((Net.linear id wId (some bId) i o hi ho).mod.jmp x none (some M) .weight st).1 = _
    rw [hcall]; exact ht
  have hpre : 0 < size [B, o, i] := by rw [size3]; exact Nat.mul_pos hB hoi
  refine ⟨fun h1 h2 => ?_, fun h1 h2 => ?_, fun h1 h2 => ?_⟩
  · subst h1 h2
    obtain ⟨m', e1, hs1, hd1⟩ := reshapeInfer_ret (t := a) (pre := [m, o, i]) (q := 1) hpre (by rw [hn, size3]; ring)
    have hT : IsT4 m' m o i 1 fun b k j _ => M.data ((b * o + k) * i + j) := by
      refine ⟨hs1, fun b k j l => ?_⟩
      have hlt : ((b : Nat) * o + k) * i + j < o * i * m := by
        have : ((b : Nat) * o + k) < m * o := pair_lt b k
        calc ((b : Nat) * o + k) * i + j < ((b : Nat) * o + k) * i + i := by omega
          _ = ((b : Nat) * o + k + 1) * i := by ring
          _ ≤ m * o * i := Nat.mul_le_mul_right _ this
          _ = o * i * m := by ring
      rw [get4 hs1, hd1, show (b : Nat) * (o * (i * 1)) + (k * (i * 1) + (j * 1 + l)) = (b * o + k) * i + j by
        have := l.2; rw [show (l : Nat) = 0 by omega]; ring, hdat _ (by omega), Nat.div_eq_of_lt hlt, Nat.mod_eq_of_lt hlt, get3 hM, Nat.zero_mul, Nat.zero_add,
        Nat.div_add_mod']
    obtain ⟨r, e2, hr⟩ := ein_bkji_bj hT hxv
    obtain ⟨t, e3, ht⟩ := add3_left (F := fun b k => ∑ j : Fin i, M.data ((b * o + k) * i + j) * X b j) (G := fun k q => M.get [0, o * i + k, q]) hRB.symm hRB.symm hr
      (hc.congr fun b k q => by simp)
    exact ⟨t, hret (by rw [e1, Res.bind_ok, e2, Res.bind_ok, e3]; rfl), ht⟩
  · subst h1 h2
    obtain ⟨m', e1, hs1, hd1⟩ := reshapeInfer_ret (t := a) (pre := [1, o, i]) (q := R) hpre (by rw [hn, size3]; ring)
    have hT : IsT4 m' 1 o i R fun b k j q => M.get [((k * i + j) * R + q) / (o * i), ((k * i + j) * R + q) % (o * i), 0] := by
      refine ⟨hs1, fun b k j q => ?_⟩
      have hkj : (k : Nat) * i + j < o * i := pair_lt k j
      have hlt : ((k : Nat) * i + j) * R + q < R * (o * i * 1) := by
        calc ((k : Nat) * i + j) * R + q < ((k : Nat) * i + j) * R + R := by omega
          _ = ((k : Nat) * i + j + 1) * R := by ring
          _ ≤ o * i * R := Nat.mul_le_mul_right _ hkj
          _ = R * (o * i * 1) := by ring
      rw [get4 hs1, hd1, show (b : Nat) * (o * (i * R)) + (k * (i * R) + (j * R + q)) = (k * i + j) * R + q by
        rw [show (b : Nat) = 0 by omega]; ring, hdat _ hlt]
      simp [Nat.mod_one]
    obtain ⟨r, e2, hr⟩ := ein_bkji_bj hT hxv
    obtain ⟨t, e3, ht⟩ := add3_right (F := fun k q => ∑ j : Fin i, M.get [((k * i + j) * R + q) / (o * i), ((k * i + j) * R + q) % (o * i), 0] * X ⟨0, hB⟩ j)
      (G := fun r k => M.get [(r : Nat), o * i + k, 0]) hRB hRB (hr.congr fun b k q => by rw [Subsingleton.elim b ⟨0, hB⟩])
      (hc.congr fun b k q => by simp)
    exact ⟨t, hret (by rw [e1, Res.bind_ok, e2, Res.bind_ok, e3]; rfl), ht⟩
  · rw [hcall]
    by_cases hd : B ∣ R * m
    · obtain ⟨q, hq⟩ := hd
      obtain ⟨m', e1, hs1, hd1⟩ := reshapeInfer_ret (t := a) (pre := [B, o, i]) (q := q) hpre (by
        rw [hn, size3, show R * (o * i * m) = R * m * (o * i) by ring, hq]; ring)
      obtain ⟨r, e2, hr⟩ := ein_bkji_bj (F := fun b k j l => m'.get [(b : Nat), (k : Nat), (j : Nat), (l : Nat)]) ⟨hs1, fun _ _ _ _ => rfl⟩ hxv
      have e3 : r.add c = .error .shape := by
        refine add3_bad hr.1 hc.1 ?_
        by_cases hB1 : B = 1
        · subst hB1
          have hm1 : m ≠ 1 := fun e => h2 ⟨rfl, e⟩
          rw [Nat.one_mul] at hq
          subst hq
          refine .inr ⟨fun e => hRB ?_, fun e => hRB (Nat.eq_one_of_mul_eq_one_right e), hm1⟩
          exact Nat.eq_of_mul_eq_mul_right hm (e.trans (Nat.one_mul m).symm)
        · by_cases hR1 : R = 1
          · subst hR1
            rw [Nat.one_mul] at hq
            refine .inr ⟨fun e => hB1 ?_, fun e => h1 ⟨rfl, ?_⟩, fun e => hB1 ?_⟩
            · subst e
              exact Nat.eq_of_mul_eq_mul_right hm (hq.symm.trans (Nat.one_mul _).symm)
            · rw [hq, e, Nat.mul_one]
            · rw [e] at hq
              exact Nat.eq_one_of_mul_eq_one_right hq.symm
          · exact .inl ⟨fun e => hRB e.symm, hB1, hR1⟩
      simp only [e1, e2, e3, Res.bind_ok]
      rfl
    · have e1 : a.reshapeInfer [B, o, i] [] = .error .shape := by
        have : ¬ a.numel % (size [B, o, i] * size []) = 0 := by
          rw [hn, size3, size_nil, mul_one, ← Nat.dvd_iff_mod_eq_zero, show R * (o * i * m) = R * m * (o * i) by ring, Nat.mul_dvd_mul_iff_right hoi]
          exact hd
        simp only [reshapeInfer]
        rw [if_neg (by rw [size_nil, mul_one]; exact hpre.ne'), if_neg this]
      simp only [e1]
      rfl

private theorem div_pr {p q : Nat} (a : Fin p) (b : Fin q) : (finProdFinEquiv (a, b)).divNat = a :=
  congrArg Prod.fst (finProdFinEquiv.symm_apply_apply (a, b))

private theorem mod_pr {p q : Nat} (a : Fin p) (b : Fin q) : (finProdFinEquiv (a, b)).modNat = b :=
  congrArg Prod.snd (finProdFinEquiv.symm_apply_apply (a, b))

private theorem rowOr0_self {R : Nat} (h : 0 < R) (r : Fin R) : rowOr0 h r = r := by simp [rowOr0]

/-- C70: `vjp` with respect to the weights takes vectors of any width `w` (as if the layer had `w` outputs): entry `a * i + j` of a row is the product of the entries `a` of
the vector and `j` of the sample, and the last `w` entries, with a bias, are the vector.  Without a bias, a single row stands for itself repeated, and several
rows for a single sample give one long row; otherwise, and always with a bias, another number of rows than samples is refused. -/
theorem C70_vjp (hB : 0 < B) (hR : 0 < R) (hx : IsBatch x B [i] i X) {U : Fin R → Fin w → ℝ} (hu : IsVec u R w U) :
    (R = B ∨ R = 1 → b? = none → ∃ t, Returns ((Linear.mod id wId b? i o).vjp x none u .weight) st (some t) ∧
      IsVec t B (w * i) fun b c => U (rowOr0 hR b) c.divNat * X b c.modNat) ∧
    (B = 1 → b? = none → ∃ t, Returns ((Linear.mod id wId b? i o).vjp x none u .weight) st (some t) ∧ t.shape = [1, R * (w * i)]) ∧
    (R = B → b? = some bId → ∃ t, Returns ((Linear.mod id wId b? i o).vjp x none u .weight) st (some t) ∧
      IsVec t B (w * i + w) fun b => Fin.append (fun c => U (rowOr0 hR b) c.divNat * X b c.modNat) (U (rowOr0 hR b))) ∧
    (R ≠ B → (b? = some bId ∨ (R ≠ 1 ∧ B ≠ 1)) → ((Linear.mod id wId b? i o).vjp x none u .weight st).1 = .error .shape) := by
  have hxv := isVec_iff_batch.2 hx
  have hx2 : x.dims2 = .ok (B, i) := by simp [dims2, hx.1]
  have hcall : ∀ b?, ((Linear.mod id wId b? i o).vjp x none u .weight st).1 = (do
      let t ← einsum% "bi,bj->bij" [u, x]
      let t ← t.reshapeInfer [B] []
      match b?.map st.param with
      | none => pure (some t)
      | some _ => some <$> cat2 t u 1) := by
    intro b?
    show Linear.vjp (st.param wId) (b?.map st.param) x none u .weight = _
    cases b? <;> simp only [Linear.vjp, hx2, Res.bind_ok] <;> rfl
  have key : R = B ∨ R = 1 → ∃ t3 t, einsum% "bi,bj->bij" [u, x] = .ok t3 ∧ t3.reshapeInfer [B] [] = .ok t ∧
      IsVec t B (w * i) fun b c => U (rowOr0 hR b) c.divNat * X b c.modNat := by
    intro hRB
    obtain ⟨t, e3, ht⟩ := ein_outer_rows hR hB hu hxv (by omega)
    have e : (if R = 1 then B else R) = B := by split_ifs <;> omega
    have ht' : IsMat t B w i fun b a j => U (rowOr0 hR b) a * X b j := by
      refine ⟨by rw [ht.1, e], fun b a j => ?_⟩
      have := ht.2 ⟨b, by omega⟩ a j
      rw [this]
      dsimp only
      rw [rowOr0_self hB b]
    obtain ⟨t', e1, ht1⟩ := Linear.flat_ret hB ht'
    exact ⟨t, t', e3, e1, ht1⟩
  refine ⟨fun hRB hb => ?_, fun hB1 hb => ?_, fun hRB hb => ?_, fun hRB hb => ?_⟩
  · subst hb
    obtain ⟨t3, t, e3, e, ht⟩ := key hRB
    refine ⟨t, ?_, ht⟩
    show ((Linear.mod id wId none i o).vjp x none u .weight st).1 = _
    rw [hcall, e3, Res.bind_ok, e]
    rfl
  · subst hb
    subst hB1
    obtain ⟨t3, e3, h3⟩ := ein_outer_rows hR hB hu hxv (by omega)
    have e : (if R = 1 then 1 else R) = R := by split_ifs <;> omega
    obtain ⟨t, e1, hs, _⟩ := reshapeInfer_ret (t := t3) (pre := [1]) (q := R * (w * i)) (by simp [size_cons, size_nil]) (by
      rw [numel, h3.1, e, size3]; simp [size_cons, size_nil])
    refine ⟨t, ?_, hs⟩
    show ((Linear.mod id wId none i o).vjp x none u .weight st).1 = _
    rw [hcall, e3, Res.bind_ok, e1]
    rfl
  · subst hb hRB
    obtain ⟨t3, t, e3, e, ht⟩ := key (.inl rfl)
    obtain ⟨t', e', ht'⟩ := cat2_vec ht hu
    refine ⟨t', ?_, ht'.congr fun b c => by rw [rowOr0_self hR b]⟩
    show ((Linear.mod id wId (some bId) i o).vjp x none u .weight st).1 = _
    rw [hcall, e3, Res.bind_ok, e]
    show some <$> cat2 t u 1 = _
    rw [e']
    rfl
  · by_cases hok : R = 1 ∨ B = 1
    · have hb : b? = some bId := hb.resolve_right fun h => hok.elim h.1 h.2
      subst hb
      obtain ⟨t3, e3, h3⟩ := ein_outer_rows hR hB hu hxv (by omega)
      obtain ⟨t, e1, hs, _⟩ := reshapeInfer_ret (t := t3) (pre := [B]) (q := (if B = 1 then R else 1) * (w * i)) (by simpa [size_cons, size_nil] using hB) (by
        rw [numel, h3.1, size3]
        simp only [size_cons, size_nil, mul_one, ← mul_assoc]
        congr 2
        rcases hok with rfl | rfl
        · split_ifs <;> simp_all
        · split_ifs <;> simp_all)
      rw [hcall, e3, Res.bind_ok, e1, Res.bind_ok]
      show some <$> cat2 t u 1 = _
      rw [cat2_bad (by rw [hs]; rfl) hu.1 (Ne.symm hRB)]
      rfl
    · push Not at hok
      rw [hcall, ein_outer_bad hu hxv hok.1 hok.2 hRB]
      rfl

/-- C70: `mjp` with respect to the weights takes matrices with any number of columns in the same way, and refuses another number of matrices than samples. -/
theorem C70_mjp (hB : 0 < B) {r : Nat} (hr : 0 < r) (hx : IsBatch x B [i] i X) {Z : Fin R → Matrix (Fin r) (Fin w) ℝ} (hM : IsMat M R r w Z) :
    (∀ e : R = B, b? = none → ∃ t, Returns ((Linear.mod id wId b? i o).mjp x none (some M) .weight) st (some t) ∧
      IsMat t B r (w * i) fun b a c => Z (e ▸ b) a c.divNat * X b c.modNat) ∧
    (∀ e : R = B, b? = some bId → ∃ t, Returns ((Linear.mod id wId b? i o).mjp x none (some M) .weight) st (some t) ∧
      IsMat t B r (w * i + w) fun b a => Fin.append (fun c => Z (e ▸ b) a c.divNat * X b c.modNat) (Z (e ▸ b) a)) ∧
    (R ≠ B → ((Linear.mod id wId b? i o).mjp x none (some M) .weight st).1 = .error .assertion) := by
  have hxv := isVec_iff_batch.2 hx
  have hx2 : x.dims2 = .ok (B, i) := by simp [dims2, hx.1]
  have hM0 : M.dim 0 = .ok R := by simp [dim, hM.1]
  have hM1 : M.dim 1 = .ok r := by simp [dim, hM.1]
  refine ⟨fun e hb => ?_, fun e hb => ?_, fun e => ?_⟩
  · subst e hb
    have : Ret (Linear.mjp (st.param wId) none x none (some M) .weight) (IsSome fun t => IsMat t R r (w * i) fun b a c => Z b a c.divNat * X b c.modNat) := by
      refine Ret.sok hx2 (Ret.sok hM1 (Ret.sok hM0 ((Ret.assertR rfl).bind fun _ _ => ?_)))
      refine Linear.mjp_core hB hr hxv hM fun t ht => Ret.pure (ht.congr fun b a c => ?_)
      obtain ⟨⟨k, j⟩, rfl⟩ := finProdFinEquiv.surjective c
      rw [mul_WJ, div_pr, mod_pr]
    obtain ⟨t, e, ht⟩ := this.exists_some
    exact ⟨t, e, ht⟩
  · subst e hb
    have : Ret (Linear.mjp (st.param wId) (some (st.param bId)) x none (some M) .weight) (IsSome fun t => IsMat t R r (w * i + w) fun b a =>
        Fin.append (fun c => Z b a c.divNat * X b c.modNat) (Z b a)) := by
      refine Ret.sok hx2 (Ret.sok hM1 (Ret.sok hM0 ((Ret.assertR rfl).bind fun _ _ => ?_)))
      refine Linear.mjp_core hB hr hxv hM fun t ht => (cat2_cols ht hM).some.mono fun _ h => IsSome.mono h fun _ h => h.congr fun b a c => ?_
      refine Fin.addCases (fun c => ?_) (fun c => ?_) c
      · obtain ⟨⟨k, j⟩, rfl⟩ := finProdFinEquiv.surjective c
        rw [hcat_left, mul_WJ, Fin.append_left, div_pr, mod_pr]
      · rw [hcat_right, Fin.append_right]
    obtain ⟨t, e, ht⟩ := this.exists_some
    exact ⟨t, e, ht⟩
  · show Linear.mjp (st.param wId) (b?.map st.param) x none (some M) .weight = _
    simp only [Linear.mjp, hx2, Res.bind_ok, hM0, hM1]
    rw [assertR, if_neg (by simpa using fun h => e h.symm)]
    rfl

/-- C70: the backward products with respect to the weights do not use the weights and not the number of outputs, only whether there is a bias.  So with an argument of
width `w` they are those of any Linear layer with `w` outputs (C03, C04, C07). -/
theorem C70_width {id' wId' i' o' : Nat} {b?' : Option Nat} {st' : Store ℝ} (hb : b?.isSome = b?'.isSome) :
    (∀ val val' u, ((Linear.mod id wId b? i o).vjp x val u .weight st).1 = ((Linear.mod id' wId' b?' i' o').vjp x val' u .weight st').1) ∧
    (∀ val val' M, ((Linear.mod id wId b? i o).mjp x val (some M) .weight st).1 = ((Linear.mod id' wId' b?' i' o').mjp x val' (some M) .weight st').1) ∧
    (∀ v v' M fd td db, ((Linear.mod id wId b? i o).jTmjp x (some v) (some M) .weight fd td db st).1 =
      ((Linear.mod id' wId' b?' i' o').jTmjp x (some v') (some M) .weight fd td db st').1) := by
  have hm : ∀ (W W' : Tensor ℝ) (b b' : Option (Tensor ℝ)) (val val' : Option (Tensor ℝ)) M, b.isSome = b'.isSome →
      Linear.mjp W b x val (some M) .weight = Linear.mjp W' b' x val' (some M) .weight := by
    intro W W' b b' val val' M h
    cases b <;> cases b' <;> first | rfl | simp at h
  refine ⟨fun val val' u => ?_, fun val val' M => ?_, fun v v' M fd td db => ?_⟩
  · show Linear.vjp (st.param wId) (b?.map st.param) x val u .weight = Linear.vjp (st'.param wId') (b?'.map st'.param) x val' u .weight
    cases b? <;> cases b?' <;> first | rfl | simp at hb
  · exact hm (st.param wId) (st'.param wId') (b?.map st.param) (b?'.map st'.param) val val' M (by simpa using hb)
  · show PyVal.ofOption <$> Linear.jTmjp (st.param wId) (b?.map st.param) x (some v) (some M) .weight fd td db =
      PyVal.ofOption <$> Linear.jTmjp (st'.param wId') (b?'.map st'.param) x (some v') (some M) .weight fd td db
    refine congrArg _ ?_
    have hm' : ∀ M, Linear.mjp (st.param wId) (b?.map st.param) x (some v) (some M) .weight = Linear.mjp (st'.param wId') (b?'.map st'.param) x (some v') (some M) .weight :=
      fun M => hm _ _ _ _ _ _ _ (by simpa using hb)
    simp only [Linear.jTmjp, Linear.getVal, Res.bind_ok]
    cases fd <;> cases td
    · simp only [hm']
    all_goals cases b? <;> cases b?' <;> first | rfl | simp at hb

/-- C70: `jTmjp` with respect to the weights, arguments with another number of rows than samples.  Matrices are refused if both factors are full; a diagonal metric to the diagonal
of the result: a single row for several samples gives one long row instead of one row for each sample; several rows for a single sample give one row each; others are refused. -/
theorem C70_jTmjp (hB : 0 < B) (hR : 0 < R) (hRB : R ≠ B) (h : (Net.linear id wId b? i o hi ho).Ok st) (hx : IsBatch x B [i] i X) :
    (∀ {a c db}, M.shape = [R, a, c] →
      ((Net.linear id wId b? i o hi ho).mod.jTmjp x none (some M) .weight false false db st).1 = .error .assertion) ∧
    (∀ {D : Fin R → Fin w → ℝ} {db}, IsVec M R w D →
      (R = 1 → ∃ t, Returns ((Net.linear id wId b? i o hi ho).mod.jTmjp x none (some M) .weight true true db) st (.tensor t) ∧
        t.shape = [1, B * (w * i) + biasLen b? w]) ∧
      (B = 1 → b? = none → ∃ t, Returns ((Net.linear id wId b? i o hi ho).mod.jTmjp x none (some M) .weight true true db) st (.tensor t) ∧
        IsVec t R (w * i) fun r c => X ⟨0, hB⟩ c.modNat ^ 2 * D r c.divNat) ∧
      (B = 1 → b? = some bId → ∃ t, Returns ((Net.linear id wId b? i o hi ho).mod.jTmjp x none (some M) .weight true true db) st (.tensor t) ∧
        IsVec t R (w * i + w) fun r => Fin.append (fun c => X ⟨0, hB⟩ c.modNat ^ 2 * D r c.divNat) (D r)) ∧
      (R ≠ 1 → B ≠ 1 → ((Net.linear id wId b? i o hi ho).mod.jTmjp x none (some M) .weight true true db st).1 = .error .shape)) := by
  obtain ⟨v, hv, hs⟩ := valOk h hx
  have hxv := isVec_iff_batch.2 hx
  have hx2 : x.dims2 = .ok (B, i) := by simp [dims2, hx.1]
  constructor
  · intro a c db hM
    show PyVal.ofOption <$> Linear.jTmjp (st.param wId) (b?.map st.param) x none (some M) .weight false false db = _
    have ht : ∃ M', M.transpose12 = .ok M' ∧ M'.shape = [R, c, a] := by
      obtain ⟨M', e, h'⟩ := transpose_mat (a := M) (M := fun r k l => M.get [(r : Nat), (k : Nat), (l : Nat)]) ⟨hM, fun _ _ _ => rfl⟩
      exact ⟨M', e, h'.1⟩
    obtain ⟨M', e, hM'⟩ := ht
    have hM0 : M'.dim 0 = .ok R := by simp [dim, hM']
    have hM1 : M'.dim 1 = .ok c := by simp [dim, hM']
    simp only [Linear.jTmjp, hv, Res.bind_ok, e, Linear.mjp, hx2, hM0, hM1]
    rw [assertR, if_neg (by simpa using fun h => hRB h.symm)]
    rfl
  · intro D db hM
    have hM2 : M.dims2 = .ok (R, w) := by simp [dims2, hM.1]
    obtain ⟨xx, exx, hxx⟩ := mul_vec hxv hxv
    have hcall : ((Net.linear id wId b? i o hi ho).mod.jTmjp x none (some M) .weight true true db st).1 = PyVal.ofOption <$> (do
        let t ← einsum% "bj,bi->bij" [xx, M]
        let t ← t.reshapeInfer [R] []
        match b?.map st.param with
        | none => pure (some t)
        | some _ => some <$> cat2 t M 1) := by
      show PyVal.ofOption <$> Linear.jTmjp (st.param wId) (b?.map st.param) x none (some M) .weight true true db = _
      cases b? <;> simp only [Linear.jTmjp, hv, Res.bind_ok, hM2, exx] <;> rfl
    have one : B = 1 → ∃ t3 t, einsum% "bj,bi->bij" [xx, M] = .ok t3 ∧ t3.reshapeInfer [R] [] = .ok t ∧
        IsVec t R (w * i) fun r c => X ⟨0, hB⟩ c.modNat ^ 2 * D r c.divNat := by
      intro hB1
      subst hB1
      obtain ⟨t3, e3, h3⟩ := ein_outer_rows' hB hR hxx hM (.inl rfl)
      have h3' : IsMat t3 R w i fun r a j => X ⟨0, hB⟩ j ^ 2 * D r a := by
        refine ⟨by rw [h3.1, if_pos rfl], fun r a j => ?_⟩
        have := h3.2 ⟨r, by rw [if_pos rfl]; exact r.2⟩ a j
        rw [this]
        dsimp only
        rw [rowOr0_self hR r, Subsingleton.elim (rowOr0 hB (r : Nat)) ⟨0, hB⟩, pow_two]
      obtain ⟨t, e1, ht⟩ := Linear.flat_ret hR h3'
      exact ⟨t3, t, e3, e1, ht⟩
    refine ⟨fun hR1 => ?_, fun hB1 hb => ?_, fun hB1 hb => ?_, fun hR1 hB1 => ?_⟩
    · subst hR1
      obtain ⟨t3, e3, h3⟩ := ein_outer_rows' hB hR hxx hM (.inr (.inl rfl))
      obtain ⟨t, e1, ht, _⟩ := reshapeInfer_ret (t := t3) (pre := [1]) (q := B * (w * i)) (by simp [size_cons, size_nil]) (by
        rw [numel, h3.1, if_neg hRB.symm, size3]; simp [size_cons, size_nil])
      cases b? with
      | none =>
        refine ⟨t, ?_, ht⟩
        rw [Returns, hcall, e3, Res.bind_ok, e1]
        rfl
      | some c =>
        obtain ⟨t', e', ht'⟩ := cat2_shape1 (a := t) (c := M) ht hM.1
        refine ⟨t', ?_, ht'⟩
        rw [Returns, hcall, e3, Res.bind_ok, e1]
        show PyVal.ofOption <$> (some <$> cat2 t M 1) = _
        rw [e']
        rfl
    · subst hb
      obtain ⟨t3, t, e3, e1, ht⟩ := one hB1
      refine ⟨t, ?_, ht⟩
      rw [Returns, hcall, e3, Res.bind_ok, e1]
      rfl
    · subst hb
      obtain ⟨t3, t, e3, e1, ht⟩ := one hB1
      obtain ⟨t', e', ht'⟩ := cat2_vec ht hM
      refine ⟨t', ?_, ht'⟩
      rw [Returns, hcall, e3, Res.bind_ok, e1]
      show PyVal.ofOption <$> (some <$> cat2 t M 1) = _
      rw [e']
      rfl
    · rw [hcall, ein_outer_bad' hxx hM hB1 hR1 hRB.symm]
      rfl

/-! Cases: the layers Linear(2, 3) (9 weights) and Linear(2, 3, bias=False) (6 weights) on the two samples of `exInput`. -/

private theorem lin_ok : (Net.linear 1 0 (some 1) 2 3 two_pos three_pos).Ok exStore := ⟨by simp [Net.ids], by simp [Net.Wired, exStore]⟩
private theorem lin0_ok : (Net.linear 1 0 none 2 3 two_pos three_pos).Ok exStore := ⟨by simp [Net.ids], by simp [Net.Wired, exStore]⟩

example : ((Net.linear 1 0 (some 1) 2 3 two_pos three_pos).mod.jvp exInput none ⟨[2, 6], fun _ => 1⟩ .weight exStore).1 = .error .assertion :=
  (C70_jvp lin_ok exInput_isBatch (u := ⟨[2, 6], fun _ => 1⟩) rfl).1 (by simp [biasLen])
example : ((Net.linear 1 0 (some 1) 2 3 two_pos three_pos).mod.jvp exInput none ⟨[1, 9], fun _ => 1⟩ .weight exStore).1 = .error .shape :=
  (C70_jvp lin_ok exInput_isBatch (u := ⟨[1, 9], fun _ => 1⟩) rfl).2 (by simp [biasLen]) (by norm_num)

/-- one 6 x 4 matrix for two samples is taken for two 6 x 2 matrices, one 6 x 3 matrix is refused -/
example : (Net.linear 1 0 none 2 3 two_pos three_pos).mod.jmp exInput none (some ⟨[1, 6, 4], fun n => n⟩) .weight exStore =
    (Net.linear 1 0 none 2 3 two_pos three_pos).mod.jmp exInput none (some ⟨[2, 6, 2], fun n => n⟩) .weight exStore :=
  (C70_jmp two_pos lin0_ok exInput_isBatch (M := ⟨[1, 6, 4], fun n => n⟩) rfl).2.1 rfl rfl (by norm_num)
example : ((Net.linear 1 0 none 2 3 two_pos three_pos).mod.jmp exInput none (some ⟨[1, 6, 3], fun n => n⟩) .weight exStore).1 = .error .shape :=
  (C70_jmp two_pos lin0_ok exInput_isBatch (M := ⟨[1, 6, 3], fun n => n⟩) rfl).2.2 rfl rfl (by norm_num)

/-- one 9 x 2 matrix, with both columns 0, 1, .., 8, for two samples is not refused; the product with the Jacobian at the second sample (2, 3) has first entry 2·0 + 3·1 + 6, the returned tensor 2·3 + 3·3 + 6 -/
example : ∃ t, Returns ((Net.linear 1 0 (some 1) 2 3 two_pos three_pos).mod.jmp exInput none (some ⟨[1, 9, 2], fun n => (n / 2 : Nat)⟩) .weight) exStore (some t) ∧
    t.shape = [2, 3, 2] ∧ t.get [1, 0, 0] = 2 * 3 + 3 * 3 + 6 := by
  obtain ⟨t, h1, h2⟩ := (C70_jmp_bias two_pos one_pos two_pos lin_ok exInput_isBatch (M := ⟨[1, 9, 2], fun n => (n / 2 : Nat)⟩) (by norm_num) rfl).1 rfl rfl
  refine ⟨t, h1, h2.1, ?_⟩
  have := h2.2 1 0 0
  simp [Tensor.get, ravel, Fin.sum_univ_two] at this
  exact this.trans (by norm_num)
/-- three 9 x 1 matrices for one sample -/
example : ∃ t, Returns ((Net.linear 1 0 (some 1) 2 3 two_pos three_pos).mod.jmp ⟨[1, 2], fun n => n⟩ none (some ⟨[3, 9, 1], fun n => n⟩) .weight) exStore (some t) ∧
    t.shape = [3, 3, 3] := by
  obtain ⟨t, h1, h2⟩ := (C70_jmp_bias (B := 1) one_pos three_pos one_pos lin_ok (X := fun _ j => j) (x := ⟨[1, 2], fun n => n⟩) ⟨rfl, fun b j => by simp⟩
    (M := ⟨[3, 9, 1], fun n => n⟩) (by norm_num) rfl).2.1 rfl rfl
  exact ⟨t, h1, h2.1⟩

/-- a vector of width 5 for the layer with 3 outputs -/
example : ∃ t, Returns ((Linear.mod 1 0 (some 1) 2 3).vjp exInput none ⟨[2, 5], fun n => n⟩ .weight) exStore (some t) ∧ t.shape = [2, 15] := by
  obtain ⟨t, h1, h2⟩ := (C70_vjp (bId := 1) two_pos two_pos exInput_isBatch (u := ⟨[2, 5], fun n => n⟩) (U := fun b a => 5 * b + a)
    ⟨rfl, fun b a => by simp [Tensor.get, ravel]; ring⟩).2.2.1 rfl rfl
  exact ⟨t, h1, h2.1⟩
/-- a single row for two samples: only without a bias -/
example : ((Linear.mod 1 0 (some 1) 2 3).vjp exInput none ⟨[1, 3], fun n => n⟩ .weight exStore).1 = .error .shape ∧
    ∃ t, Returns ((Linear.mod 1 0 none 2 3).vjp exInput none ⟨[1, 3], fun n => n⟩ .weight) exStore (some t) ∧ t.shape = [2, 6] := by
  have h : ∀ b?, _ := fun b? => C70_vjp (st := exStore) (id := 1) (wId := 0) (o := 3) (b? := b?) (bId := 1) two_pos one_pos exInput_isBatch (u := ⟨[1, 3], fun n => n⟩) (U := fun _ a => a)
    ⟨rfl, fun b a => by rw [Subsingleton.elim b 0]; simp [Tensor.get, ravel]⟩
  obtain ⟨t, h1, h2⟩ := (h none).1 (.inr rfl) rfl
  exact ⟨(h (some 1)).2.2.2 (by norm_num) (.inl rfl), t, h1, h2.1⟩

example : ((Linear.mod 1 0 (some 1) 2 3).mjp exInput none (some ⟨[1, 4, 3], fun n => n⟩) .weight exStore).1 = .error .assertion :=
  (C70_mjp (bId := 1) (Z := fun _ r a => 3 * (r : ℝ) + a) two_pos (r := 4) (by norm_num) exInput_isBatch (M := ⟨[1, 4, 3], fun n => n⟩)
    ⟨rfl, fun b r a => by rw [Subsingleton.elim b 0]; simp [Tensor.get, ravel]; ring⟩).2.2 (by norm_num)

/-- a single diagonal for two samples gives one row of 15 = 2·(3·2) + 3 numbers -/
example : ∃ t, Returns ((Net.linear 1 0 (some 1) 2 3 two_pos three_pos).mod.jTmjp exInput none (some ⟨[1, 3], fun n => n⟩) .weight true true false) exStore (.tensor t) ∧
    t.shape = [1, 15] :=
  ((C70_jTmjp (bId := 1) two_pos one_pos (by norm_num) lin_ok exInput_isBatch (M := ⟨[1, 3], fun n => n⟩)).2 (D := fun _ a => a)
    ⟨rfl, fun b a => by rw [Subsingleton.elim b 0]; simp [Tensor.get, ravel]⟩).1 rfl

end NNJ.Props
