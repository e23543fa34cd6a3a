import Verif.Spec.RoundDiag
import Verif.Proofs.RoundVjpW
import Verif.Proofs.NoneNet

/-! Relative errors of the diagonal jTmjp: no cancellation. -/

namespace NNJ
open Tensor

theorem NearOne.comp {u f g : ℝ} {m k : Nat} (hu : 0 ≤ u) (hf : NearOne u m f) (hg : NearOne u k g) : NearOne u (m + k) (f * g) := by
  unfold NearOne at *
  have e : f * g - 1 = (f - 1) * g + (g - 1) := by ring
  have h1 : |g| ≤ (1 + u) ^ k := by
    have := abs_sub_abs_le_abs_sub g 1
    rw [abs_one] at this
    linarith
  have h0 : (0 : ℝ) ≤ (1 + u) ^ m - 1 := (abs_nonneg _).trans hf
  calc |f * g - 1| ≤ |f - 1| * |g| + |g - 1| := by rw [e, ← abs_mul]; exact abs_add_le _ _
    _ ≤ ((1 + u) ^ m - 1) * (1 + u) ^ k + ((1 + u) ^ k - 1) := add_le_add (mul_le_mul hf h1 (abs_nonneg _) h0) hg
    _ = (1 + u) ^ (m + k) - 1 := by rw [pow_add]; ring

/-- a sum of nonnegative numbers with small relative errors has a small relative error -/
theorem NearOne.sum {u : ℝ} {K n : Nat} (hu : 0 ≤ u) (a θ : Fin n → ℝ) (ha : ∀ j, 0 ≤ a j) (hθ : ∀ j, NearOne u K (θ j)) :
    ∃ t, NearOne u K t ∧ ∑ j, a j * θ j = (∑ j, a j) * t := by
  rcases (Finset.sum_nonneg fun j _ => ha j : 0 ≤ ∑ j, a j).eq_or_lt with h | h
  · refine ⟨1, NearOne.one.mono hu (Nat.zero_le _), ?_⟩
    have : ∀ j, a j = 0 := fun j => (Finset.sum_eq_zero_iff_of_nonneg fun j _ => ha j).1 h.symm j (Finset.mem_univ _)
    simp [this]
  · refine ⟨(∑ j, a j * θ j) / ∑ j, a j, ?_, by field_simp⟩
    unfold NearOne
    rw [div_sub_one h.ne', abs_div, abs_of_pos h, div_le_iff₀ h, ← Finset.sum_sub_distrib, Finset.mul_sum]
    refine (Finset.abs_sum_le_sum_abs _ _).trans (Finset.sum_le_sum fun j _ => ?_)
    have := (hθ j).dist (a := a j)
    rwa [abs_of_nonneg (ha j)] at this

section
variable {α : Type} [Zero α] [One α] [Add α] [Mul α]

theorem sand_linear_eval {d W : Tensor α} {B i o : Nat} (hd : d.shape = [B, o]) (hW : W.shape = [o, i]) :
    ∃ r, einsum% "nm,bn,nm->bm" [W, d, W] = .ok r ∧ r.shape = [B, i] ∧ ∀ (b : Fin B) (k : Fin i),
      r.data (b * i + k) = sumRange o fun j => W.data (j * i + k) * (d.data (b * o + j) * W.data (j * i + k)) := by
  have : Ret (einsum% "nm,bn,nm->bm" [W, d, W]) fun r => r.shape = [B, i] ∧ ∀ (b : Fin B) (k : Fin i),
      r.get [↑b, ↑k] = sumRange o fun j => W.get [j, ↑k] * (d.get [↑b, j] * W.get [j, ↑k]) := by
    refine ein_ret (dm [('b', B), ('n', o), ('m', i)]) (by simp [ShapesFit, dm, hd, hW]) (by simp) fun r hs hg => ⟨by simpa [dm] using hs, ?_⟩
    intro b k
    rw [hg _ (by simp [dm])]
    simp [sumLabels, contracted, envGet, prodList, plainProd, dm]
  obtain ⟨r, h1, h2, h3⟩ := this
  refine ⟨r, h1, h2, fun b k => ?_⟩
  have := h3 b k
  simpa only [get2 h2, get2 hd, get2 hW] using this

theorem linear_jTI_eval {d W x y : Tensor α} {bias : Option (Tensor α)} {B i o : Nat} (hd : d.shape = [B, o]) (hW : W.shape = [o, i]) :
    ∃ r, Linear.jTmjp W bias x (some y) (some d) .input true true true = .ok (some r) ∧ r.shape = [B, i] ∧ ∀ (b : Fin B) (k : Fin i),
      r.data (b * i + k) = sumRange o fun j => W.data (j * i + k) * (d.data (b * o + j) * W.data (j * i + k)) := by
  obtain ⟨r, h1, h2, h3⟩ := sand_linear_eval hd hW
  refine ⟨r, ?_, h2, h3⟩
  show some <$> einsum% "nm,bn,nm->bm" [W, d, W] = _
  rw [h1]; rfl

theorem outer2_eval {v x : Tensor α} {B i o : Nat} (hv : v.shape = [B, o]) (hx : x.shape = [B, i]) (hB : 0 < B) :
    ∃ r, (do let r ← einsum% "bj,bi->bij" [x, v]; r.reshapeInfer [B] []) = .ok r ∧ r.shape = [B, o * i] ∧
      ∀ (b : Fin B) (j : Fin o) (k : Fin i), r.data (b * (o * i) + (j * i + k)) = x.data (b * i + k) * v.data (b * o + j) := by
  have : Ret (einsum% "bj,bi->bij" [x, v]) fun r => r.shape = [B, o, i] ∧ ∀ (b : Fin B) (j : Fin o) (k : Fin i),
      r.get [↑b, ↑j, ↑k] = x.get [↑b, ↑k] * v.get [↑b, ↑j] := by
    refine ein_ret (dm [('b', B), ('i', o), ('j', i)]) (by simp [ShapesFit, dm, hv, hx]) (by simp) fun r hs hg => ⟨by simpa [dm] using hs, ?_⟩
    intro b j k
    rw [hg _ (by simp [dm])]
    simp [sumLabels, contracted, envGet, prodList, plainProd, dm]
  obtain ⟨r, h1, h2, h3⟩ := this
  refine ⟨⟨[B, o * i], r.data⟩, ?_, rfl, fun b j k => ?_⟩
  · rw [h1]
    show r.reshapeInfer [B] [] = _
    simp only [reshapeInfer, size_cons, size_nil, mul_one, numel, h2, Nat.mul_mod_right, if_true, Nat.ne_of_gt hB, if_false, Nat.mul_div_cancel_left _ hB]
    rfl
  · have := h3 b j k
    simpa only [get3 h2, get2 hv, get2 hx] using this

theorem linear_jTW_eval {W d x y : Tensor α} {bias : Option (Tensor α)} {B i o : Nat} (hd : d.shape = [B, o])
    (hx : x.shape = [B, i]) (hB : 0 < B) :
    ∃ r, Linear.jTmjp W bias x (some y) (some d) .weight true true true = .ok (some r) ∧ r.shape = [B, o * i + if bias.isSome then o else 0] ∧ ∀ b : Fin B,
      (∀ (j : Fin o) (k : Fin i), r.data (b * (o * i + if bias.isSome then o else 0) + (j * i + k)) = x.data (b * i + k) * x.data (b * i + k) * d.data (b * o + j)) ∧
      (bias.isSome → ∀ j : Fin o, r.data (b * (o * i + o) + (o * i + j)) = d.data (b * o + j)) := by
  obtain ⟨r, h1, h2, h3⟩ := outer2_eval (x := ⟨x.shape, fun k => x.data k * x.data k⟩) hd hx hB
  have e : ∀ f : Tensor α → Res (Option (Tensor α)), (do
      let (b, _) ← d.dims2
      let xsq ← x.mul x
      let r ← einsum% "bj,bi->bij" [xsq, d]
      let r ← r.reshapeInfer [b] []
      f r) = f r := by
    intro f
    have hdd : d.dims2 = .ok (B, o) := by simp [dims2, hd]
    have hm : x.mul x = .ok ⟨x.shape, fun k => x.data k * x.data k⟩ := by simp [Tensor.mul, zipWithB]
    rw [hdd, hm]
    show ((einsum% "bj,bi->bij" [⟨x.shape, fun k => x.data k * x.data k⟩, d]) >>= fun r => r.reshapeInfer [B] [] >>= f) = f r
    have h1' : ((einsum% "bj,bi->bij" [⟨x.shape, fun k => x.data k * x.data k⟩, d]) >>= fun r => r.reshapeInfer [B] []) = Except.ok r := h1
    rw [← bind_assoc, h1']
    rfl
  cases bias with
  | none =>
    refine ⟨r, e fun r => pure (some r), by simpa using h2, fun b => ⟨fun j k => ?_, fun h => absurd h (by simp)⟩⟩
    simpa using h3 b j k
  | some c =>
    obtain ⟨t, a1, a2, a3⟩ := cat2_eval h2 hd
    refine ⟨t, (e fun r => some <$> cat2 r d 1).trans (by rw [a1]; rfl), by simpa using a2, fun b => ⟨fun j k => ?_, fun _ j => (a3 b).2 j⟩⟩
    have hlt : (j : ℕ) * i + k < o * i := by
      calc (j : ℕ) * i + k < j * i + i := by omega
        _ = (j + 1) * i := by ring
        _ ≤ o * i := Nat.mul_le_mul_right _ j.2
    have := (a3 b).1 ⟨j * i + k, hlt⟩
    simp only [Option.isSome_some, if_true]
    rw [this]
    exact h3 b j k

theorem relu_jT_eval [LT α] [DecidableLT α] {x y d : Tensor α} {B n : Nat} {s : List Nat} (hx : x.shape = B :: s) (hy : y.shape = B :: s) (hs : size s = n)
    (hB : 0 < B) (hd : d.shape = [B, n]) :
    ∃ r, (Activation.relu : PureLayer α).jTmjp x (some y) (some d) .input true true true = .ok (some r) ∧ r.shape = [B, n] ∧
      ∀ (b : Fin B) (k : Fin n), r.data (b * n + k) =
        (if 0 < y.data (b * n + k) then 1 else 0) * (if 0 < y.data (b * n + k) then 1 else 0) * d.data (b * n + k) := by
  have e : B * size s / B = n := by rw [hs, Nat.mul_div_cancel_left _ hB]
  have hdg : (y.map fun v => if 0 < v then (1 : α) else 0).reshapeInfer [B] [] = .ok ⟨[B, n], (y.map fun v => if 0 < v then (1 : α) else 0).data⟩ := by
    simp only [reshapeInfer, size_cons, size_nil, mul_one, numel, Tensor.map, hy, Nat.mul_mod_right, if_true, Nat.ne_of_gt hB, if_false, e]
    rfl
  obtain ⟨r, h1, h2, h3⟩ := mul_eval (v := ⟨[B, n], fun k => (if 0 < y.data k then (1 : α) else 0) * (if 0 < y.data k then (1 : α) else 0)⟩) rfl hd
  refine ⟨r, ?_, h2, h3⟩
  have hj : Activation.jacobian (fun x => .ok (x.map Activation.reluF)) Activation.reluDiag x (some y) .input true =
      .ok (some ⟨[B, n], (y.map fun v => if 0 < v then (1 : α) else 0).data⟩) := by
    show (y.dim 0 >>= fun b => (Activation.reluDiag x y).reshapeInfer [b] [] >>= _) = _
    rw [show y.dim 0 = .ok B by simp [dim, hy]]
    show ((Activation.reluDiag x y).reshapeInfer [B] [] >>= _) = _
    rw [show Activation.reluDiag x y = y.map fun v => if 0 < v then (1 : α) else 0 from rfl, hdg]
    rfl
  show (x.dim 0 >>= fun _ => Activation.jacobian _ Activation.reluDiag x (some y) .input true >>= fun dj => match dj with
    | none => pure none | some dj => AbstractDiagonal.sandwich dj d true true) = _
  rw [show x.dim 0 = .ok B by simp [dim, hx], hj]
  show some <$> einsum% "bi,bi->bi" [_, d] = _
  have h1' : einsum% "bi,bi->bi" [Tensor.map (fun a => a * a) ⟨[B, n], (y.map fun v => if 0 < v then (1 : α) else 0).data⟩, d] = .ok r := h1
  rw [h1']
  rfl

theorem relu_jTW_eval [LT α] [DecidableLT α] {x y d : Tensor α} {B : Nat} {s : List Nat} (hx : x.shape = B :: s) :
    (Activation.relu : PureLayer α).jTmjp x (some y) (some d) .weight true true true = .ok none := by
  show (x.dim 0 >>= fun _ => _) = _
  rw [show x.dim 0 = .ok B by simp [dim, hx]]
  rfl
end

section
variable {α : Type}

theorem consVal_ofOption (go : Option (Tensor α)) (acc : List (PyVal α)) :
    Sequential.consVal (PyVal.ofOption go) acc = go.toList.map PyVal.tensor ++ acc := by
  cases go <;> rfl

/-- one step of the loop of jTmjp wrt the weights -/
theorem jTmjpWeight_step {id n : Nat} {ms : List (Mod α)} {k : Nat} {s : Store α} {m : Mod α} {x y d u : Tensor α} {go : Option (Tensor α)}
    {acc : List (PyVal α)} {R : Res (List (PyVal α)) × Store α} (hm : ms[k]? = some m) (hx : Sequential.fmap id k s = (.ok x, s))
    (hy : Sequential.fmap id (k + 1) s = (.ok y, s)) (h1 : m.jTmjp x (some y) (some d) .weight true true true s = (.ok (PyVal.ofOption go), s))
    (h2 : m.jTmjp x (some y) (some d) .input true true true s = (.ok (.tensor u), s))
    (h3 : Sequential.jTmjpWeight id n ms true true true k (some u) (go.toList.map PyVal.tensor ++ acc) s = R) :
    Sequential.jTmjpWeight id n ms true true true (k + 1) (some d) acc s = R := by
  refine Prog.bind_ok (s' := s) (b := m) (by simp [Sequential.child, hm]) |>.trans ?_
  refine Prog.bind_ok hx |>.trans ?_
  refine Prog.bind_ok hy |>.trans ?_
  refine Prog.bind_ok (by rw [ite_self]; exact h1) |>.trans ?_
  rw [consVal_ofOption]
  cases k with
  | zero => exact h3
  | succ k =>
    refine Prog.bind_ok (by rw [ite_self]; exact h2) |>.trans ?_
    exact Prog.bind_ok (s' := s) (b := some u) rfl |>.trans h3

theorem jTmjpInput_step {id n : Nat} {ms : List (Mod α)} {k : Nat} {s : Store α} {m : Mod α} {x y d u : Tensor α}
    {R : Res (Option (Tensor α)) × Store α} (hm : ms[k]? = some m) (hx : Sequential.fmap id k s = (.ok x, s))
    (hy : Sequential.fmap id (k + 1) s = (.ok y, s))
    (h2 : m.jTmjp x (some y) (some d) .input true true true s = (.ok (.tensor u), s))
    (h3 : Sequential.jTmjpInput id n ms true true true k (some u) s = R) :
    Sequential.jTmjpInput id n ms true true true (k + 1) (some d) s = R := by
  refine Prog.bind_ok (s' := s) (b := m) (by simp [Sequential.child, hm]) |>.trans ?_
  refine Prog.bind_ok hx |>.trans ?_
  refine Prog.bind_ok hy |>.trans ?_
  refine Prog.bind_ok (by rw [ite_self, ite_self]; exact h2) |>.trans ?_
  exact Prog.bind_ok (s' := s) (b := some u) rfl |>.trans h3

theorem mapM_toTensor (ts : List (Tensor α)) : (ts.map PyVal.tensor).mapM PyVal.toTensor = (.ok ts : Res _) := by
  induction ts with
  | nil => rfl
  | cons t ts ih =>
    rw [List.map_cons, List.mapM_cons, ih]
    rfl

/-- the end of Sequential.jTmjp wrt the weights -/
theorem seq_jTW [Zero α] [One α] {id : Nat} {ms : List (Mod α)} {s : Store α} {x y d : Tensor α} {ts : List (Tensor α)} {go : Option (Tensor α)} {l : Nat}
    (hl : ms.length = l) (h : Sequential.jTmjpWeight id ms.length ms true true true l (some d) [] s = (.ok (ts.map PyVal.tensor), s))
    (hc : Sequential.catOrNone 1 ts = .ok go) :
    Sequential.jTmjp id true ms x (some y) (some d) .weight true true true s = (.ok (PyVal.ofOption go), s) := by
  subst hl
  refine Prog.bind_ok (s' := s) (b := ()) (by simp [Prog.assert]) |>.trans ?_
  refine Prog.bind_ok (s' := s) (b := y) rfl |>.trans ?_
  refine Prog.bind_ok (s' := s) (b := (d, true)) rfl |>.trans ?_
  refine Prog.bind_ok h |>.trans ?_
  cases go with
  | none =>
    rw [catOrNone_nil hc]
    rfl
  | some g =>
    obtain ⟨h1, h2⟩ := catOrNone_some hc
    rw [if_neg (by simpa using h1)]
    refine Prog.bind_ok (s' := s) (b := ts) ?_ |>.trans ?_
    · show ((ts.map PyVal.tensor).mapM PyVal.toTensor, s) = _
      rw [mapM_toTensor]
    · refine Prog.bind_ok (s' := s) (b := g) ?_ |>.trans rfl
      show (Tensor.cat 1 ts, s) = _
      rw [h2]

theorem seq_jTI [Zero α] [One α] {id : Nat} {ms : List (Mod α)} {s : Store α} {x y d r : Tensor α} {l : Nat}
    (hl : ms.length = l) (h : Sequential.jTmjpInput id ms.length ms true true true l (some d) s = (.ok (some r), s)) :
    Sequential.jTmjp id true ms x (some y) (some d) .input true true true s = (.ok (.tensor r), s) := by
  subst hl
  refine Prog.bind_ok (s' := s) (b := ()) (by simp [Prog.assert]) |>.trans ?_
  refine Prog.bind_ok (s' := s) (b := y) rfl |>.trans ?_
  refine Prog.bind_ok (s' := s) (b := (d, true)) rfl |>.trans ?_
  exact Prog.bind_ok h |>.trans rfl
end

section
set_option linter.unusedSectionVars false
variable {β : Type} [Zero β] [One β] [Add β] [Sub β] [Mul β] [Neg β] [Div β] [NatCast β] [LT β] [DecidableLT β] [Trans β] (R : Rounding β)

/-- a nonnegative number and a rounded version of it, after `K` roundings -/
def RelN (K : Nat) (a : β) (a' : ℝ) : Prop := 0 ≤ a' ∧ ∃ θ, NearOne R.u K θ ∧ R.val a = a' * θ

theorem RelN.mono {K L : Nat} {a : β} {a' : ℝ} (h : RelN R K a a') (hl : K ≤ L) : RelN R L a a' :=
  ⟨h.1, h.2.imp fun _ h => ⟨h.1.mono R.u_nonneg hl, h.2⟩⟩

theorem RelN.mul {K L : Nat} {a c : β} {a' c' : ℝ} (h : RelN R K a a') (h2 : RelN R L c c') : RelN R (K + L + 1) (a * c) (a' * c') := by
  obtain ⟨h0, θ, hθ, e⟩ := h
  obtain ⟨g0, η, hη, f⟩ := h2
  obtain ⟨δ, hδ, hm⟩ := R.mul a c
  refine ⟨mul_nonneg h0 g0, θ * η * (1 + δ), (hθ.comp R.u_nonneg hη).mul hδ, ?_⟩
  rw [hm, e, f]; ring

theorem RelN.sq (a : β) : RelN R 1 (a * a) (R.val a * R.val a) := by
  obtain ⟨δ, hδ, hm⟩ := R.mul a a
  exact ⟨mul_self_nonneg _, 1 + δ, NearOne.delta hδ, hm⟩

theorem RelN.sand {K : Nat} {d : β} {d' : ℝ} (h : RelN R K d d') (w : β) : RelN R (K + 2) (w * (d * w)) (R.val w * (d' * R.val w)) := by
  obtain ⟨h0, θ, hθ, e⟩ := h
  obtain ⟨δ, hδ, hm⟩ := R.mul d w
  obtain ⟨δ', hδ', hm'⟩ := R.mul w (d * w)
  refine ⟨?_, θ * (1 + δ) * (1 + δ'), (hθ.mul hδ).mul hδ', ?_⟩
  · rw [show R.val w * (d' * R.val w) = d' * (R.val w * R.val w) by ring]
    exact mul_nonneg h0 (mul_self_nonneg _)
  · rw [hm', hm, e]; ring

theorem RelN.sum {K n : Nat} {f : Nat → β} {f' : Nat → ℝ} (h : ∀ j : Fin n, RelN R K (f j) (f' j)) : RelN R (K + n) (sumRange n f) (sumRange n f') := by
  obtain ⟨η, hη, hs⟩ := R.sum f n
  choose h0 θ hθ e using h
  obtain ⟨t, ht, hsum⟩ := NearOne.sum (K := K + n) R.u_nonneg (fun j : Fin n => f' j) (fun j => θ j * η j) h0 fun j => (hθ j).comp R.u_nonneg (hη j)
  rw [sumRange_eq]
  refine ⟨Finset.sum_nonneg fun j _ => h0 j, t, ht, ?_⟩
  rw [hs, ← hsum]
  exact Finset.sum_congr rfl fun j _ => by rw [e]; ring

def RelD (K B n : Nat) (d : Tensor β) (d' : Tensor ℝ) : Prop :=
  d.shape = [B, n] ∧ d'.shape = [B, n] ∧ ∀ (b : Fin B) (c : Fin n), RelN R K (d.data (b * n + c)) (d'.data (b * n + c))

theorem RelD.mono {K L B n : Nat} {d : Tensor β} {d' : Tensor ℝ} (h : RelD R K B n d d') (hl : K ≤ L) : RelD R L B n d d' :=
  ⟨h.1, h.2.1, fun b c => (h.2.2 b c).mono R hl⟩

def RelO (K B p : Nat) : Option (Tensor β) → Option (Tensor ℝ) → Prop
  | none, none => p = 0
  | some r, some r' => 0 < p ∧ RelD R K B p r r'
  | _, _ => False

theorem RelO.mono {K L B p : Nat} {r : Option (Tensor β)} {r' : Option (Tensor ℝ)} (h : RelO R K B p r r') (hl : K ≤ L) : RelO R L B p r r' := by
  cases r <;> cases r'
  · exact h
  · exact h
  · exact h
  · exact ⟨h.1, h.2.mono R hl⟩

def RelL (K B p : Nat) (ts : List (Tensor β)) (ts' : List (Tensor ℝ)) : Prop :=
  ∃ go go', Sequential.catOrNone 1 ts = .ok go ∧ Sequential.catOrNone 1 ts' = .ok go' ∧ RelO R K B p go go'

theorem RelL.snoc {K B p q : Nat} {ts : List (Tensor β)} {ts' : List (Tensor ℝ)} {ro : Option (Tensor β)} {ro' : Option (Tensor ℝ)}
    (h : RelL R K B p ts ts') (hr : RelO R K B q ro ro') : RelL R K B (p + q) (ts ++ ro.toList) (ts' ++ ro'.toList) := by
  obtain ⟨so, so', h1, h2, h3⟩ := h
  cases ro with
  | none =>
    cases ro' with
    | some _ => exact hr.elim
    | none =>
      have : q = 0 := hr
      subst this
      simp only [Option.toList_none, List.append_nil, Nat.add_zero]
      exact ⟨so, so', h1, h2, h3⟩
  | some t =>
    cases ro' with
    | none => exact hr.elim
    | some t' =>
      obtain ⟨hq, t1, t2, t3⟩ := hr
      simp only [Option.toList_some]
      cases so with
      | none =>
        cases so' with
        | some _ => exact h3.elim
        | none =>
          have : p = 0 := h3
          subst this
          rw [catOrNone_nil h1, catOrNone_nil h2, Nat.zero_add]
          exact ⟨some t, some t', catOrNone_one t1, catOrNone_one t2, hq, t1, t2, t3⟩
      | some r =>
        cases so' with
        | none => exact h3.elim
        | some r' =>
          obtain ⟨hp, r1, r2, r3⟩ := h3
          obtain ⟨c, c1, c2, c3⟩ := cat2_eval r1 t1
          obtain ⟨c', d1, d2, d3⟩ := cat2_eval r2 t2
          refine ⟨some c, some c', catOrNone_append h1 c1, catOrNone_append h2 d1, by omega, c2, d2, fun b i => ?_⟩
          refine Fin.addCases (fun i => ?_) (fun i => ?_) i
          · rw [Fin.val_castAdd, (c3 b).1 i, (d3 b).1 i]
            exact r3 b i
          · rw [Fin.val_natAdd, (c3 b).2 i, (d3 b).2 i]
            exact t3 b i

/-- both results of a module, and of its exact version -/
def DiagR (L : Nat) (M : Mod β) (M' : Mod ℝ) (sf : Store β) (x y d : Tensor β) (d' : Tensor ℝ) (B n p : Nat) : Prop :=
  ∃ r r' go go', M.jTmjp x (some y) (some d) .input true true true sf = (.ok (.tensor r), sf) ∧
    M'.jTmjp (x.map R.val) (some (y.map R.val)) (some d') .input true true true (sf.image R.val) = (.ok (.tensor r'), sf.image R.val) ∧ RelD R L B n r r' ∧
    M.jTmjp x (some y) (some d) .weight true true true sf = (.ok (PyVal.ofOption go), sf) ∧
    M'.jTmjp (x.map R.val) (some (y.map R.val)) (some d') .weight true true true (sf.image R.val) = (.ok (PyVal.ofOption go'), sf.image R.val) ∧
    RelO R L B p go go'

mutual
theorem Net.diagR (hone : R.val 1 = 1) (q : ℝ → β) (fn : (ℝ → ℝ) → β → β) (m : Nat) (sf : Store β) {B : Nat} (hB : 0 < B) :
    {s s' : List Nat} → {n k p : Nat} → (N : Net s n s' k p) → N.ReluSeq m → N.Shapes (sf.image R.val) →
    N.Fits B (fun i => (sf.fmaps i).map (List.map Tensor.shape)) →
    ∀ {K : Nat} {x y d : Tensor β} {d' : Tensor ℝ}, x.shape = B :: s → y.shape = B :: s' → RelD R K B k d d' →
    DiagR R (K + N.roundings) (N.modIn q fn) N.mod sf x y d d' B n p
  | _, _, _, _, _, .linear id wId bId i o hi ho, hN, hS, hF, K, x, y, d, d', hx, hy, hd => by
    obtain ⟨hd1, hd2, hd3⟩ := hd
    obtain ⟨r, h1, h2, h3⟩ := linear_jTI_eval (W := sf.param wId) (bias := bId.map sf.param) (x := x) (y := y) hd1 hS.1
    obtain ⟨r', e1, e2, e3⟩ := linear_jTI_eval (W := (sf.image R.val).param wId) (bias := bId.map (sf.image R.val).param) (x := x.map R.val) (y := y.map R.val) hd2 hS.1
    obtain ⟨g, a1, a2, a3⟩ := linear_jTW_eval (W := sf.param wId) (bias := bId.map sf.param) (x := x) (y := y) hd1 hx hB
    obtain ⟨g', b1, b2, b3⟩ := linear_jTW_eval (W := (sf.image R.val).param wId) (bias := bId.map (sf.image R.val).param) (x := x.map R.val) (y := y.map R.val) hd2 hx hB
    refine ⟨r, r', some g, some g', ?_, ?_, ⟨h2, e2, fun b c => ?_⟩, ?_, ?_, ?_⟩
    · show ((do let r ← Linear.jTmjp (sf.param wId) (bId.map sf.param) x (some y) (some d) .input true true true; pure (PyVal.ofOption r)), sf) = _
      rw [h1]; rfl
    · show ((do let r ← Linear.jTmjp ((sf.image R.val).param wId) (bId.map (sf.image R.val).param) (x.map R.val) (some (y.map R.val)) (some d') .input true true true
                pure (PyVal.ofOption r)), sf.image R.val) = _
      rw [e1]; rfl
    · rw [h3, e3]
      have := RelN.sum R (n := o) (fun j => (hd3 b j).sand R ((sf.param wId).data (j * i + c)))
        (f := fun j => (sf.param wId).data (j * i + c) * (d.data (b * o + j) * (sf.param wId).data (j * i + c)))
        (f' := fun j => R.val ((sf.param wId).data (j * i + c)) * (d'.data (b * o + j) * R.val ((sf.param wId).data (j * i + c))))
      exact this.mono R (by simp only [Net.roundings]; omega)
    · show ((do let r ← Linear.jTmjp (sf.param wId) (bId.map sf.param) x (some y) (some d) .weight true true true; pure (PyVal.ofOption r)), sf) = _
      rw [a1]; rfl
    · show ((do let r ← Linear.jTmjp ((sf.image R.val).param wId) (bId.map (sf.image R.val).param) (x.map R.val) (some (y.map R.val)) (some d') .weight true true true
                pure (PyVal.ofOption r)), sf.image R.val) = _
      rw [b1]; rfl
    · have l1 : (if (bId.map sf.param).isSome then o else 0) = biasLen bId o := by cases bId <;> rfl
      have l2 : (if (bId.map (sf.image R.val).param).isSome then o else 0) = biasLen bId o := by cases bId <;> rfl
      have hoi : 0 < o * i := Nat.mul_pos ho hi
      rw [l1] at a2 a3
      rw [l2] at b2 b3
      refine ⟨by omega, a2, b2, fun b c => ?_⟩
      obtain ⟨c, hcl⟩ := c
      dsimp only
      by_cases hc : c < o * i
      · have hj : c / i < o := Nat.div_lt_of_lt_mul (by rwa [Nat.mul_comm])
        have hk : c % i < i := Nat.mod_lt _ hi
        have hdm : c / i * i + c % i = c := by rw [Nat.mul_comm]; exact Nat.div_add_mod _ _
        have c1 := (a3 b).1 ⟨_, hj⟩ ⟨_, hk⟩
        have c2 := (b3 b).1 ⟨_, hj⟩ ⟨_, hk⟩
        simp only [hdm] at c1 c2
        rw [c1, c2]
        exact ((RelN.sq R (x.data (b * i + c % i))).mul R (hd3 b ⟨_, hj⟩)).mono R (by simp only [Net.roundings]; omega)
      · cases bId with
        | none => simp [biasLen] at hcl; omega
        | some bi =>
          simp only [biasLen] at hcl a3 b3 ⊢
          have hj : c - o * i < o := by omega
          have hdm : o * i + (c - o * i) = c := by omega
          have c1 := (a3 b).2 rfl ⟨_, hj⟩
          have c2 := (b3 b).2 rfl ⟨_, hj⟩
          simp only [hdm] at c1 c2
          rw [c1, c2]
          exact (hd3 b ⟨_, hj⟩).mono R (Nat.le_add_right _ _)
  | _, _, _, _, _, .act a id s n hs hn, hN, hS, hF, K, x, y, d, d', hx, hy, hd => by
    have ha : a = .relu := hN
    subst ha
    obtain ⟨hd1, hd2, hd3⟩ := hd
    obtain ⟨r, h1, h2, h3⟩ := relu_jT_eval hx hy hs hB hd1
    obtain ⟨r', e1, e2, e3⟩ := relu_jT_eval (x := x.map R.val) (y := y.map R.val) hx hy hs hB hd2
    refine ⟨r, r', none, none, ?_, ?_, ⟨h2, e2, fun b c => ?_⟩, ?_, ?_, rfl⟩
    · show ((do let r ← (Activation.relu : PureLayer β).jTmjp x (some y) (some d) .input true true true; pure (PyVal.ofOption r)), sf) = _
      rw [h1]; rfl
    · show ((do let r ← (Activation.relu : PureLayer ℝ).jTmjp (x.map R.val) (some (y.map R.val)) (some d') .input true true true; pure (PyVal.ofOption r)), sf.image R.val) = _
      rw [e1]; rfl
    · rw [h3 b c, e3 b c]
      have hz : (0 < (y.map R.val).data (b * n + c)) ↔ 0 < y.data (b * n + c) := by
        rw [R.lt_iff, R.zero]; rfl
      have hm : RelN R 1 ((if 0 < y.data (b * n + c) then (1 : β) else 0) * (if 0 < y.data (b * n + c) then 1 else 0))
          ((if 0 < (y.map R.val).data (b * n + c) then (1 : ℝ) else 0) * (if 0 < (y.map R.val).data (b * n + c) then 1 else 0)) := by
        have := RelN.sq R (if 0 < y.data (b * n + c) then (1 : β) else 0)
        have e : R.val (if 0 < y.data (b * n + c) then (1 : β) else 0) = if 0 < (y.map R.val).data (b * n + c) then (1 : ℝ) else 0 := by
          by_cases h : 0 < y.data (b * n + c)
          · rw [if_pos h, if_pos (hz.2 h), hone]
          · rw [if_neg h, if_neg (fun h' => h (hz.1 h')), R.zero]
        rwa [e] at this
      exact (hm.mul R (hd3 b c)).mono R (by simp only [Net.roundings]; omega)
    · show ((do let r ← (Activation.relu : PureLayer β).jTmjp x (some y) (some d) .weight true true true; pure (PyVal.ofOption r)), sf) = _
      rw [relu_jTW_eval hx]; rfl
    · show ((do let r ← (Activation.relu : PureLayer ℝ).jTmjp (x.map R.val) (some (y.map R.val)) (some d') .weight true true true; pure (PyVal.ofOption r)), sf.image R.val) = _
      rw [relu_jTW_eval (x := x.map R.val) hx]; rfl
  | _, _, _, _, _, .flatten id s n hs hn, hN, hS, hF, K, x, y, d, d', hx, hy, hd =>
    ⟨d, d', none, none, rfl, rfl, hd, rfl, rfl, rfl⟩
  | _, _, _, _, _, .reshape id s dims n hs hd' hn z hz, hN, hS, hF, K, x, y, d, d', hx, hy, hd =>
    ⟨d, d', none, none, rfl, rfl, hd, rfl, rfl, rfl⟩
  | _, _, _, _, _, .l2norm _ _ _ _ _ _ _, hN, _, _, _, _, _, _, _, _, _, _ => hN.elim
  | _, _, _, _, _, .conv _ _ _ _, hN, _, _, _, _, _, _, _, _, _, _ => hN.elim
  | _, _, _, _, _, .upsample _ _ _ _ _ _ _ _ _, hN, _, _, _, _, _, _, _, _, _, _ => hN.elim
  | _, _, _, _, _, .maxpool _ _, hN, _, _, _, _, _, _, _, _, _, _ => hN.elim
  | _, _, _, _, _, .skip _ _ _, hN, _, _, _, _, _, _, _, _, _, _ => hN.elim
  | _, _, _, _, _, .seq id c, hN, hS, hF, K, x, y, d, d', hx, hy, hd => by
    simp only [Net.Fits] at hF
    obtain ⟨⟨L, hL, hT⟩, hF⟩ := hF
    obtain ⟨L', hL', rfl⟩ := Option.map_eq_some_iff.1 hL
    obtain ⟨r, r', ts, ts', h1, h2, h3, h4, h5, go, go', h6, h7, h8⟩ :=
      Chain.diagR hone q fn m sf hB id (c.modsIn q fn).length c.mods.length [] [] hL' c hN hS hT hF hd
    simp only [List.append_nil] at h1 h2 h4 h5
    have k1 := modsIn_length q fn c
    have k2 := chain_mods_length c
    exact ⟨r, r', go, go', seq_jTI k1 h1, seq_jTI k2 h2, h3, seq_jTW (ts := ts) k1 ((h4 []).trans (by rw [List.append_nil])) h6,
      seq_jTW (ts := ts') k2 ((h5 []).trans (by rw [List.append_nil])) h7, h8⟩
theorem Chain.diagR (hone : R.val 1 = 1) (q : ℝ → β) (fn : (ℝ → ℝ) → β → β) (m : Nat) (sf : Store β) {B : Nat} (hB : 0 < B)
    (id nn nn' : Nat) (tl : List (Mod β)) (tl' : List (Mod ℝ)) {L : List (Tensor β)} (hL : sf.fmaps id = some L) :
    {s s' : List Nat} → {n k p l : Nat} → (c : Chain s n s' k p l) → c.ReluSeq m → c.Shapes (sf.image R.val) →
    c.Trail B (L.map Tensor.shape) → c.Fits B (fun i => (sf.fmaps i).map (List.map Tensor.shape)) →
    ∀ {K : Nat} {d : Tensor β} {d' : Tensor ℝ}, RelD R K B k d d' →
    ∃ r r' ts ts', Sequential.jTmjpInput id nn (c.modsIn q fn ++ tl) true true true l (some d) sf = (.ok (some r), sf) ∧
      Sequential.jTmjpInput id nn' (c.mods ++ tl') true true true l (some d') (sf.image R.val) = (.ok (some r'), sf.image R.val) ∧
      RelD R (K + c.roundings) B n r r' ∧
      (∀ acc, Sequential.jTmjpWeight id nn (c.modsIn q fn ++ tl) true true true l (some d) acc sf = (.ok (ts.map PyVal.tensor ++ acc), sf)) ∧
      (∀ acc, Sequential.jTmjpWeight id nn' (c.mods ++ tl') true true true l (some d') acc (sf.image R.val) = (.ok (ts'.map PyVal.tensor ++ acc), sf.image R.val)) ∧
      RelL R (K + c.roundings) B p ts ts'
  | _, _, _, _, _, _, .nil s n hs hn, hN, hS, hT, hF, K, d, d', hd =>
    ⟨d, d', [], [], rfl, rfl, hd, fun _ => rfl, fun _ => rfl, none, none, rfl, rfl, rfl⟩
  | _, _, _, _, _, _, @Chain.snoc sI sM sO n j k p p' l c N, hN, hS, hT, hF, K, d, d', hd => by
    simp only [Chain.Trail] at hT
    simp only [Chain.Fits] at hF
    obtain ⟨hT1, hT2⟩ := hT
    have hl := hT1.last
    rw [List.getElem?_map, Option.map_eq_some_iff] at hl hT2
    obtain ⟨x, hxL, hx⟩ := hl
    obtain ⟨y, hyL, hy⟩ := hT2
    have hL' : (sf.image R.val).fmaps id = some (L.map (Tensor.map R.val)) := by simp [Store.image, hL]
    have fx := fmap_some hL hxL
    have fy := fmap_some hL hyL
    have fx' := fmap_some hL' (k := l) (t := x.map R.val) (by simp [hxL])
    have fy' := fmap_some hL' (k := l + 1) (t := y.map R.val) (by simp [hyL])
    obtain ⟨u, u', go, go', a1, a2, a3, a4, a5, a6⟩ := Net.diagR hone q fn m sf hB N hN.2 hS.2 hF.2 hx hy hd
    obtain ⟨r, r', ts, ts', b1, b2, b3, b4, b5, b6⟩ :=
      Chain.diagR hone q fn m sf hB id nn nn' (N.modIn q fn :: tl) (N.mod :: tl') hL c hN.1 hS.1 hT1 hF.1 a3
    have hK : K + N.roundings + c.roundings = K + (c.roundings + N.roundings) := by omega
    rw [hK] at b3 b6
    refine ⟨r, r', ts ++ go.toList, ts' ++ go'.toList, ?_, ?_, b3, fun acc => ?_, fun acc => ?_, b6.snoc R (a6.mono R (by omega))⟩
    · simp only [Chain.modsIn, List.append_assoc, List.singleton_append]
      exact jTmjpInput_step (by simp [modsIn_length]) fx fy a1 b1
    · simp only [Chain.mods, List.append_assoc, List.singleton_append]
      exact jTmjpInput_step (by simp [chain_mods_length]) fx' fy' a2 b2
    · simp only [Chain.modsIn, List.append_assoc, List.singleton_append, List.map_append]
      exact jTmjpWeight_step (by simp [modsIn_length]) fx fy a4 a1 (b4 _)
    · simp only [Chain.mods, List.append_assoc, List.singleton_append, List.map_append]
      exact jTmjpWeight_step (by simp [chain_mods_length]) fx' fy' a5 a2 (b5 _)
end

/-- with `val=None` jTmjp first calls `forward` -/
theorem Net.jT_none (q : ℝ → β) (fn : (ℝ → ℝ) → β → β) {m : Nat} {s s' : List Nat} {n k p : Nat} (N : Net s n s' k p) (hN : N.ReluSeq m)
    {sf sf' : Store β} {x y : Tensor β} (h : (N.modIn q fn).forward x sf = (.ok y, sf')) (d : Tensor β) (wrt : Wrt) :
    (N.modIn q fn).jTmjp x none (some d) wrt true true true sf = (N.modIn q fn).jTmjp x (some y) (some d) wrt true true true sf' := by
  cases N with
  | linear id wId bId i o hi ho =>
    injection h with h h2
    subst h2
    show ((do let r ← Linear.jTmjp _ _ x none (some d) wrt true true true; pure (PyVal.ofOption r)), sf) =
      ((do let r ← Linear.jTmjp _ _ x (some y) (some d) wrt true true true; pure (PyVal.ofOption r)), sf)
    have : Linear.getVal (sf.param wId) (bId.map sf.param) x none = .ok y := h
    simp only [Linear.jTmjp]
    rw [this]
    rfl
  | act a id s n hs hn =>
    have ha : a = .relu := hN
    subst ha
    injection h with h h2
    injection h with h
    rw [h2, ← h]
    rfl
  | flatten id s n hs hn =>
    injection h with h h2
    subst h2
    have h' : Resh.flattenForward x = .ok y := h
    show ((do let r ← Resh.jTmjp Resh.flattenForward x none (some d) wrt true true true; pure (PyVal.ofOption r)), sf) = _
    simp only [Resh.jTmjp]
    rw [h']
    rfl
  | reshape id s dims n hs hd hn z hz =>
    injection h with h h2
    subst h2
    have h' : Resh.reshapeForward z x = .ok y := h
    show ((do let r ← Resh.jTmjp (Resh.reshapeForward z) x none (some d) wrt true true true; pure (PyVal.ofOption r)), sf) = _
    simp only [Resh.jTmjp]
    rw [h']
    rfl
  | seq id c =>
    refine (Prog.bind_ok (s' := sf) (b := ()) (by simp [Prog.assert])).trans ?_
    refine Eq.trans ?_ (Prog.bind_ok (s' := sf') (b := ()) (by simp [Prog.assert])).symm
    exact (Prog.bind_ok h).trans rfl
  | _ => exact hN.elim

theorem onesLike_reshape {α : Type} [One α] {y : Tensor α} {B k : Nat} {s : List Nat} (hy : y.shape = B :: s) (hs : size s = k) (hB : 0 < B) :
    (onesLike y).reshapeInfer [B] [] = .ok (ones [B, k]) := by
  have e : B * size s / B = k := by rw [hs, Nat.mul_div_cancel_left _ hB]
  simp only [reshapeInfer, size_cons, size_nil, mul_one, numel, onesLike, ones, full, hy, Nat.mul_mod_right, if_true, Nat.ne_of_gt hB, if_false, e]
  rfl

/-- ReLU without a matrix -/
theorem relu_jT_id {α : Type} [Zero α] [One α] [Add α] [Mul α] [LT α] [DecidableLT α] {x y : Tensor α} {B n : Nat} {s : List Nat} (hx : x.shape = B :: s)
    (hy : y.shape = B :: s) (hs : size s = n) (hB : 0 < B) (wrt : Wrt) :
    (Activation.relu : PureLayer α).jTmjp x (some y) none wrt true true true = (Activation.relu : PureLayer α).jTmjp x (some y) (some (ones [B, n])) wrt true true true := by
  have hd : x.dim 0 = .ok B := by simp [dim, hx]
  simp only [Activation.relu, Activation.layer, AbstractDiagonal.defaults, AbstractDiagonal.jTmjp, hd, bind, Except.bind, pure, Except.pure, onesLike_reshape hy hs hB]

/-- Flatten and Reshape without a matrix -/
theorem resh_jT_id {α : Type} [Zero α] [One α] [Add α] [Mul α] {fwd : Tensor α → Res (Tensor α)} {x y : Tensor α} {B n : Nat} {s s' : List Nat} (hx : x.shape = B :: s)
    (hy : y.shape = B :: s') (hs : size s' = n) (hB : 0 < B) (wrt : Wrt) :
    Resh.jTmjp fwd x (some y) none wrt true true true = Resh.jTmjp fwd x (some y) (some (ones [B, n])) wrt true true true := by
  have hd : x.dim 0 = .ok B := by simp [dim, hx]
  simp only [Resh.jTmjp, hd, bind, Except.bind, pure, Except.pure, onesLike_reshape hy hs hB]

theorem linear_jT_id {α : Type} [Zero α] [One α] [Add α] [Mul α] {W x y : Tensor α} {bias : Option (Tensor α)} {B o : Nat}
    (hy : y.shape = [B, o]) (wrt : Wrt) :
    Linear.jTmjp W bias x (some y) none wrt true true true = Linear.jTmjp W bias x (some y) (some (ones [B, o])) wrt true true true := by
  rw [← hy]; rfl

theorem seq_jT_id {α : Type} [Zero α] [One α] {id : Nat} {ms : List (Mod α)} {x y : Tensor α} {B k : Nat} {s' : List Nat}
    (hy : y.shape = B :: s') (hs : size s' = k) (wrt : Wrt) (st : Store α) :
    Sequential.jTmjp id true ms x (some y) none wrt true true true st = Sequential.jTmjp id true ms x (some y) (some (ones [B, k])) wrt true true true st := by
  refine (Prog.bind_ok (s' := st) (b := ()) (by simp [Prog.assert])).trans ?_
  refine Eq.trans ?_ (Prog.bind_ok (s' := st) (b := ()) (by simp [Prog.assert])).symm
  refine (Prog.bind_ok (s' := st) (b := y) rfl).trans ?_
  refine Eq.trans ?_ (Prog.bind_ok (s' := st) (b := y) rfl).symm
  refine (Prog.bind_ok (s' := st) (b := ((ones [B, k] : Tensor α), true)) ?_).trans ?_
  · simp only [hy, hs]; rfl
  · refine Eq.trans ?_ (Prog.bind_ok (s' := st) (b := ((ones [B, k] : Tensor α), true)) rfl).symm
    rfl

/-- `matrix=None` is the metric with ones on its diagonal -/
theorem Net.jT_id (q : ℝ → β) (fn : (ℝ → ℝ) → β → β) {m : Nat} {s s' : List Nat} {n k p : Nat} (N : Net s n s' k p) (hN : N.ReluSeq m)
    {B : Nat} (hB : 0 < B) {x y : Tensor β} (hx : x.shape = B :: s) (hy : y.shape = B :: s') (wrt : Wrt) (st : Store β) :
    (N.modIn q fn).jTmjp x (some y) none wrt true true true st = (N.modIn q fn).jTmjp x (some y) (some (ones [B, k])) wrt true true true st := by
  have hk := N.sizes.2.1
  cases N with
  | linear id wId bId i o hi ho =>
    exact congrArg (fun r : Res (Option (Tensor β)) => ((do let r ← r; pure (PyVal.ofOption r) : Res (PyVal β)), st)) (linear_jT_id hy wrt)
  | act a id s n hs hn =>
    have ha : a = .relu := hN
    subst ha
    exact congrArg (fun r : Res (Option (Tensor β)) => ((do let r ← r; pure (PyVal.ofOption r) : Res (PyVal β)), st)) (relu_jT_id hx hy hk hB wrt)
  | flatten id s n hs hn =>
    exact congrArg (fun r : Res (Option (Tensor β)) => ((do let r ← r; pure (PyVal.ofOption r) : Res (PyVal β)), st)) (resh_jT_id (fwd := Resh.flattenForward) hx hy hk hB wrt)
  | reshape id s dims n hs hd hn z hz =>
    exact congrArg (fun r : Res (Option (Tensor β)) => ((do let r ← r; pure (PyVal.ofOption r) : Res (PyVal β)), st)) (resh_jT_id (fwd := Resh.reshapeForward z) hx hy hk hB wrt)
  | seq id c => exact seq_jT_id hy hk wrt st
  | _ => exact hN.elim

theorem Net.jT_id_real {m : Nat} {s s' : List Nat} {n k p : Nat} (N : Net s n s' k p) (hN : N.ReluSeq m)
    {B : Nat} (hB : 0 < B) {x y : Tensor ℝ} (hx : x.shape = B :: s) (hy : y.shape = B :: s') (wrt : Wrt) (st : Store ℝ) :
    N.mod.jTmjp x (some y) none wrt true true true st = N.mod.jTmjp x (some y) (some (ones [B, k])) wrt true true true st := by
  have hk := N.sizes.2.1
  cases N with
  | linear id wId bId i o hi ho =>
    exact congrArg (fun r : Res (Option (Tensor ℝ)) => ((do let r ← r; pure (PyVal.ofOption r) : Res (PyVal ℝ)), st)) (linear_jT_id hy wrt)
  | act a id s n hs hn =>
    have ha : a = .relu := hN
    subst ha
    exact congrArg (fun r : Res (Option (Tensor ℝ)) => ((do let r ← r; pure (PyVal.ofOption r) : Res (PyVal ℝ)), st)) (relu_jT_id hx hy hk hB wrt)
  | flatten id s n hs hn =>
    exact congrArg (fun r : Res (Option (Tensor ℝ)) => ((do let r ← r; pure (PyVal.ofOption r) : Res (PyVal ℝ)), st)) (resh_jT_id (fwd := Resh.flattenForward) hx hy hk hB wrt)
  | reshape id s dims n hs hd hn z hz =>
    exact congrArg (fun r : Res (Option (Tensor ℝ)) => ((do let r ← r; pure (PyVal.ofOption r) : Res (PyVal ℝ)), st)) (resh_jT_id (fwd := Resh.reshapeForward z) hx hy hk hB wrt)
  | seq id c => exact seq_jT_id hy hk wrt st
  | _ => exact hN.elim
end
end NNJ
