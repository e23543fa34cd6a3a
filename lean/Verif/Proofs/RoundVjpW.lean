import Verif.Proofs.RoundVjp

/-! Rounding errors of vjp wrt the weights. -/

namespace NNJ
open Tensor

section
variable {α : Type}

theorem cat2_eval {a c : Tensor α} {B m n : Nat} (ha : a.shape = [B, m]) (hc : c.shape = [B, n]) :
    ∃ r, cat2 a c 1 = .ok r ∧ r.shape = [B, m + n] ∧ ∀ b : Fin B,
      (∀ i : Fin m, r.data (b * (m + n) + i) = a.data (b * m + i)) ∧
      ∀ i : Fin n, r.data (b * (m + n) + (m + i)) = c.data (b * n + i) := by
  refine ⟨ofFn [B, m + n] fun idx => if idx.getD 1 0 < m then a.get idx else c.get (idx.set 1 (idx.getD 1 0 - m)), ?_, rfl, fun b => ⟨fun i => ?_, fun i => ?_⟩⟩
  · simp only [cat2, ha, hc, List.getElem?_cons_succ, List.getElem?_cons_zero, List.set, if_true]
  · have h := get_ofFn (s := [B, m + n]) (idx := [↑b, ↑i]) (fun idx => if idx.getD 1 0 < m then a.get idx else c.get (idx.set 1 (idx.getD 1 0 - m)))
      (by simp; omega)
    rw [get2 rfl] at h
    rw [h]
    simp only [List.getD_cons_succ, List.getD_cons_zero, i.2, if_true, get2 ha]
  · have h := get_ofFn (s := [B, m + n]) (idx := [↑b, m + ↑i]) (fun idx => if idx.getD 1 0 < m then a.get idx else c.get (idx.set 1 (idx.getD 1 0 - m)))
      (by simp)
    rw [get2 rfl] at h
    rw [h]
    simp only [List.getD_cons_succ, List.getD_cons_zero, Nat.not_lt.2 (Nat.le_add_right m i), if_false, List.set, Nat.add_sub_cancel_left, get2 hc]

theorem cat_append {d : Nat} {ts : List (Tensor α)} (h : ts ≠ []) (t : Tensor α) :
    Tensor.cat d (ts ++ [t]) = (do let r ← Tensor.cat d ts; cat2 r t d) := by
  cases ts with
  | nil => exact absurd rfl h
  | cons a ts =>
    simp only [Tensor.cat, List.cons_append]
    split_ifs
    · rw [List.foldlM_append]
      congr 1; funext r
      simp only [List.foldlM_cons, List.foldlM_nil]
      cases cat2 r t d <;> rfl
    · rfl

theorem outer_eval [Zero α] [One α] [Add α] [Mul α] {v x : Tensor α} {B i o : Nat} (hv : v.shape = [B, o]) (hx : x.shape = [B, i]) (hB : 0 < B) :
    ∃ r, (do let r ← einsum% "bi,bj->bij" [v, x]; r.reshapeInfer [B] []) = .ok r ∧ r.shape = [B, o * i] ∧
      ∀ (b : Fin B) (j : Fin o) (k : Fin i), r.data (b * (o * i) + (j * i + k)) = v.data (b * o + j) * x.data (b * i + k) := by
  have : Ret (einsum% "bi,bj->bij" [v, x]) fun r => r.shape = [B, o, i] ∧ ∀ (b : Fin B) (j : Fin o) (k : Fin i),
      r.get [↑b, ↑j, ↑k] = v.get [↑b, ↑j] * x.get [↑b, ↑k] := by
    refine ein_ret (dm [('b', B), ('i', o), ('j', i)]) (by simp [ShapesFit, dm, hv, hx]) (by simp) fun r hs hg => ⟨by simpa [dm] using hs, ?_⟩
    intro b j k
    rw [hg _ (by simp [dm])]
    simp [sumLabels, contracted, envGet, prodList, plainProd, dm]
  obtain ⟨r, h1, h2, h3⟩ := this
  refine ⟨⟨[B, o * i], r.data⟩, ?_, rfl, fun b j k => ?_⟩
  · rw [h1]
    show r.reshapeInfer [B] [] = _
    simp only [reshapeInfer, size_cons, size_nil, mul_one, numel, h2, Nat.mul_mod_right, if_true, Nat.ne_of_gt hB, if_false, Nat.mul_div_cancel_left _ hB]
    rfl
  · have := h3 b j k
    simpa only [get3 h2, get2 hv, get2 hx] using this

/-- Linear.vjp wrt the weights: the products, then the vector itself for the bias -/
theorem linear_vjpW_eval [Zero α] [One α] [Add α] [Mul α] {W v x : Tensor α} {bias y : Option (Tensor α)} {B i o : Nat} (hv : v.shape = [B, o])
    (hx : x.shape = [B, i]) (hB : 0 < B) :
    ∃ r, Linear.vjp W bias x y v .weight = .ok (some r) ∧ r.shape = [B, o * i + if bias.isSome then o else 0] ∧ ∀ b : Fin B,
      (∀ (j : Fin o) (k : Fin i), r.data (b * (o * i + if bias.isSome then o else 0) + (j * i + k)) = v.data (b * o + j) * x.data (b * i + k)) ∧
      (bias.isSome → ∀ j : Fin o, r.data (b * (o * i + o) + (o * i + j)) = v.data (b * o + j)) := by
  obtain ⟨r, h1, h2, h3⟩ := outer_eval hv hx hB
  have e : ∀ f : Tensor α → Res (Option (Tensor α)), (do
      let (b, _) ← x.dims2
      let r ← einsum% "bi,bj->bij" [v, x]
      let r ← r.reshapeInfer [b] []
      f r) = f r := by
    intro f
    have hd : x.dims2 = .ok (B, i) := by simp [dims2, hx]
    rw [hd]
    show ((einsum% "bi,bj->bij" [v, x]) >>= fun r => r.reshapeInfer [B] [] >>= f) = f r
    have h1' : ((einsum% "bi,bj->bij" [v, x]) >>= fun r => r.reshapeInfer [B] []) = Except.ok r := h1
    rw [← bind_assoc, h1']
    rfl
  cases bias with
  | none =>
    refine ⟨r, e fun r => pure (some r), by simpa using h2, fun b => ⟨fun j k => ?_, fun h => absurd h (by simp)⟩⟩
    simpa using h3 b j k
  | some c =>
    obtain ⟨t, a1, a2, a3⟩ := cat2_eval h2 hv
    refine ⟨t, (e fun r => some <$> cat2 r v 1).trans (by rw [a1]; rfl), by simpa using a2, fun b => ⟨fun j k => ?_, fun _ j => (a3 b).2 j⟩⟩
    have hlt : (j : ℕ) * i + k < o * i := by
      calc (j : ℕ) * i + k < j * i + i := by omega
        _ = (j + 1) * i := by ring
        _ ≤ o * i := Nat.mul_le_mul_right _ j.2
    have := (a3 b).1 ⟨j * i + k, hlt⟩
    simp only [Option.isSome_some, if_true]
    rw [this]
    exact h3 b j k

/-- one step of the loop of vjp wrt the weights -/
theorem vjpWeight_step {id : Nat} {ms : List (Mod α)} {k : Nat} {s : Store α} {m : Mod α} {x y v u : Tensor α} {vk : Option (Tensor α)}
    {vs : List (Tensor α)} {R : Res (List (Tensor α)) × Store α} (hm : ms[k]? = some m) (hx : Sequential.fmap id k s = (.ok x, s))
    (hy : Sequential.fmap id (k + 1) s = (.ok y, s)) (h1 : m.vjp x (some y) v .weight s = (.ok vk, s))
    (h2 : m.vjp x (some y) v .input s = (.ok (some u), s)) (h3 : Sequential.vjpWeight id ms k u (vk.toList ++ vs) s = R) :
    Sequential.vjpWeight id ms (k + 1) v vs s = R := by
  refine Prog.bind_ok (s' := s) (b := m) (by simp [Sequential.child, hm]) |>.trans ?_
  refine Prog.bind_ok hx |>.trans ?_
  refine Prog.bind_ok hy |>.trans ?_
  refine Prog.bind_ok h1 |>.trans ?_
  cases k with
  | zero => exact h3
  | succ k =>
    refine Prog.bind_ok h2 |>.trans ?_
    exact Prog.bind_ok (s' := s) (b := u) rfl |>.trans h3
end

section
set_option linter.unusedSectionVars false
variable {β : Type} [Zero β] [One β] [Add β] [Sub β] [Mul β] [Neg β] [Div β] [NatCast β] [LT β] [DecidableLT β] [Trans β] (R : Rounding β)

/-- row `b` up to one rounding per entry -/
def NearRow (B p : Nat) (b : Fin B) (r : Tensor β) (r' : Tensor ℝ) : Prop :=
  r.shape = [B, p] ∧ r'.shape = [B, p] ∧ ∀ c : Fin p, |R.val (r.data (b * p + c)) - r'.data (b * p + c)| ≤ R.u * |r'.data (b * p + c)|

/-- both absent, when there are no parameters, or both present -/
def RelW (B p : Nat) (b : Fin B) : Option (Tensor β) → Option (Tensor ℝ) → Prop
  | none, none => p = 0
  | some r, some r' => 0 < p ∧ NearRow R B p b r r'
  | _, _ => False

def RelCat (B p : Nat) (b : Fin B) (ts : List (Tensor β)) (ts' : List (Tensor ℝ)) : Prop :=
  ∃ ro ro', Sequential.catOrNone 1 ts = .ok ro ∧ Sequential.catOrNone 1 ts' = .ok ro' ∧ RelW R B p b ro ro'

theorem catOrNone_nil {α : Type} {ts : List (Tensor α)} (h : Sequential.catOrNone 1 ts = .ok none) : ts = [] := by
  unfold Sequential.catOrNone at h
  split_ifs at h with hl
  · cases hc : Tensor.cat 1 ts with
    | error e => rw [hc] at h; cases h
    | ok r => rw [hc] at h; cases h
  · exact List.length_eq_zero_iff.1 (Nat.eq_zero_of_not_pos hl)

theorem catOrNone_some {α : Type} {ts : List (Tensor α)} {r : Tensor α} (h : Sequential.catOrNone 1 ts = .ok (some r)) : ts ≠ [] ∧ Tensor.cat 1 ts = .ok r := by
  unfold Sequential.catOrNone at h
  split_ifs at h with hl
  · refine ⟨List.length_pos_iff.1 hl, ?_⟩
    cases hc : Tensor.cat 1 ts with
    | error e => rw [hc] at h; cases h
    | ok r' => rw [hc] at h; injection h with h; injection h with h; rw [h]
  · cases h

theorem catOrNone_append {α : Type} {ts : List (Tensor α)} {r t u : Tensor α} (h : Sequential.catOrNone 1 ts = .ok (some r)) (hc : cat2 r t 1 = .ok u) :
    Sequential.catOrNone 1 (ts ++ [t]) = .ok (some u) := by
  obtain ⟨h1, h2⟩ := catOrNone_some h
  unfold Sequential.catOrNone
  rw [if_pos (by simp), cat_append h1, h2]
  show some <$> cat2 r t 1 = _
  rw [hc]
  rfl

theorem catOrNone_one {α : Type} {t : Tensor α} {B p : Nat} (h : t.shape = [B, p]) : Sequential.catOrNone 1 [t] = .ok (some t) := by
  unfold Sequential.catOrNone
  rw [if_pos (by simp)]
  simp [Tensor.cat, h]

theorem RelCat.snoc {B p q : Nat} {b : Fin B} {ts : List (Tensor β)} {ts' : List (Tensor ℝ)} {ro : Option (Tensor β)} {ro' : Option (Tensor ℝ)}
    (h : RelCat R B p b ts ts') (hr : RelW R B q b ro ro') : RelCat R B (p + q) b (ts ++ ro.toList) (ts' ++ ro'.toList) := by
  obtain ⟨so, so', h1, h2, h3⟩ := h
  cases ro with
  | none =>
    cases ro' with
    | some _ => exact hr.elim
    | none =>
      have : q = 0 := hr
      subst this
      simp only [Option.toList_none, List.append_nil, Nat.add_zero]
      exact ⟨so, so', h1, h2, h3⟩
  | some t =>
    cases ro' with
    | none => exact hr.elim
    | some t' =>
      obtain ⟨hq, t1, t2, t3⟩ := hr
      simp only [Option.toList_some]
      cases so with
      | none =>
        cases so' with
        | some _ => exact h3.elim
        | none =>
          have : p = 0 := h3
          subst this
          rw [catOrNone_nil h1, catOrNone_nil h2, Nat.zero_add]
          exact ⟨some t, some t', catOrNone_one t1, catOrNone_one t2, hq, t1, t2, t3⟩
      | some r =>
        cases so' with
        | none => exact h3.elim
        | some r' =>
          obtain ⟨hp, r1, r2, r3⟩ := h3
          obtain ⟨c, c1, c2, c3⟩ := cat2_eval r1 t1
          obtain ⟨c', d1, d2, d3⟩ := cat2_eval r2 t2
          refine ⟨some c, some c', catOrNone_append h1 c1, catOrNone_append h2 d1, by omega, c2, d2, fun i => ?_⟩
          refine Fin.addCases (fun i => ?_) (fun i => ?_) i
          · rw [Fin.val_castAdd, (c3 b).1 i, (d3 b).1 i]
            exact r3 i
          · rw [Fin.val_natAdd, (c3 b).2 i, (d3 b).2 i]
            exact t3 i

/-- row `b` of both results in exact arithmetic with these parameters -/
def SimBoth (M : Mod ℝ) (ids : List Nat) (sf : Store β) (x y v r : Tensor β) (ro : Option (Tensor β)) (B n k p : Nat) (b : Fin B) (w : Nat → Nat → ℝ) : Prop :=
  ∀ T : Store ℝ, T.fmaps = (sf.image R.val).fmaps → (∀ i ∈ ids, T.param i = ⟨(sf.param i).shape, w i⟩) → ∀ v' : Tensor ℝ, v'.shape = [B, k] →
    (∀ c : Fin k, v'.data (b * k + c) = R.val (v.data (b * k + c))) →
    (∃ r', M.vjp (x.map R.val) (some (y.map R.val)) v' .input T = (.ok (some r'), T) ∧ r'.shape = [B, n] ∧
      ∀ c : Fin n, r'.data (b * n + c) = R.val (r.data (b * n + c))) ∧
    ∃ ro', M.vjp (x.map R.val) (some (y.map R.val)) v' .weight T = (.ok ro', T) ∧ RelW R B p b ro ro'

def VjpBoth (m : Nat) (M : Mod β) (M' : Mod ℝ) (ids : List Nat) (sf : Store β) (x y v : Tensor β) (B n k p : Nat) : Prop :=
  ∃ r ro, M.vjp x (some y) v .input sf = (.ok (some r), sf) ∧ M.vjp x (some y) v .weight sf = (.ok ro, sf) ∧ r.shape = [B, n] ∧
    ∀ b : Fin B, ∃ w, Close R m sf w ∧ SimBoth R M' ids sf x y v r ro B n k p b w

/-- a layer without parameters -/
theorem VjpR.both {m : Nat} {M : Mod β} {M' : Mod ℝ} {ids : List Nat} {sf : Store β} {x y v : Tensor β} {B n k : Nat}
    (h : VjpR R m M M' ids sf x y v B n k) (h0 : M.vjp x (some y) v .weight sf = (.ok none, sf))
    (h1 : ∀ (x' y' v' : Tensor ℝ) (T : Store ℝ), M'.vjp x' (some y') v' .weight T = (.ok none, T)) :
    VjpBoth R m M M' ids sf x y v B n k 0 := by
  obtain ⟨r, a1, a2, a3⟩ := h
  refine ⟨r, none, a1, h0, a2, fun b => ?_⟩
  obtain ⟨w, hw, hs⟩ := a3 b
  exact ⟨w, hw, fun T hT hp v' hv' he => ⟨hs T hT hp v' hv' he, none, h1 _ _ _ _, rfl⟩⟩

theorem near_mul (a c : β) : |R.val (a * c) - R.val a * R.val c| ≤ R.u * |R.val a * R.val c| := by
  obtain ⟨δ, hδ, h⟩ := R.mul a c
  rw [h, show R.val a * R.val c * (1 + δ) - R.val a * R.val c = δ * (R.val a * R.val c) by ring, abs_mul]
  exact mul_le_mul_of_nonneg_right hδ (abs_nonneg _)

/-- the parameter part of Linear, up to rounding -/
theorem linear_relW {W v x : Tensor β} {bias y : Option (Tensor β)} {B i o : Nat} (hv : v.shape = [B, o]) (hx : x.shape = [B, i]) (hB : 0 < B)
    (hi : 0 < i) (ho : 0 < o) :
    ∃ r, Linear.vjp W bias x y v .weight = .ok (some r) ∧ ∀ (b : Fin B) (W' : Tensor ℝ) (bias' y' : Option (Tensor ℝ)) (v' : Tensor ℝ), v'.shape = [B, o] →
      (∀ c : Fin o, v'.data (b * o + c) = R.val (v.data (b * o + c))) → bias'.isSome = bias.isSome →
      ∃ r', Linear.vjp W' bias' (x.map R.val) y' v' .weight = .ok (some r') ∧ RelW R B (o * i + if bias.isSome then o else 0) b (some r) (some r') := by
  obtain ⟨r, h1, h2, h3⟩ := linear_vjpW_eval (W := W) (bias := bias) (y := y) hv hx hB
  refine ⟨r, h1, fun b W' bias' y' v' hv' he hb => ?_⟩
  obtain ⟨r', e1, e2, e3⟩ := linear_vjpW_eval (W := W') (bias := bias') (y := y') hv' (x := x.map R.val) hx hB
  rw [hb] at e2 e3
  have hoi : 0 < o * i := Nat.mul_pos ho hi
  refine ⟨r', e1, by omega, h2, e2, fun c => ?_⟩
  obtain ⟨c, hcl⟩ := c
  dsimp only
  by_cases hc : c < o * i
  · have hj : c / i < o := Nat.div_lt_of_lt_mul (by rwa [Nat.mul_comm])
    have hk : c % i < i := Nat.mod_lt _ hi
    have hd : c / i * i + c % i = c := by rw [Nat.mul_comm]; exact Nat.div_add_mod _ _
    have a1 := (h3 b).1 ⟨_, hj⟩ ⟨_, hk⟩
    have a2 := (e3 b).1 ⟨_, hj⟩ ⟨_, hk⟩
    simp only [hd] at a1 a2
    rw [a1, a2, he ⟨_, hj⟩]
    exact near_mul R _ _
  · cases hbs : bias.isSome with
    | false => rw [hbs] at hcl; simp at hcl; omega
    | true =>
      simp only [hbs, if_true] at hcl h3 e3 ⊢
      have hj : c - o * i < o := by omega
      have hd : o * i + (c - o * i) = c := by omega
      have a1 := (h3 b).2 trivial ⟨_, hj⟩
      have a2 := (e3 b).2 trivial ⟨_, hj⟩
      simp only [hd] at a1 a2
      rw [a1, a2, he ⟨_, hj⟩, sub_self, abs_zero]
      exact mul_nonneg R.u_nonneg (abs_nonneg _)

mutual
theorem Net.vjpBoth (hone : ∀ a : β, R.val (a * 1) = R.val a) (q : ℝ → β) (fn : (ℝ → ℝ) → β → β) (m : Nat) (sf : Store β) {B : Nat} (hB : 0 < B) :
    {s s' : List Nat} → {n k p : Nat} → (N : Net s n s' k p) → N.ReluSeq m → N.paramIds.Nodup → N.Shapes (sf.image R.val) →
    N.Fits B (fun i => (sf.fmaps i).map (List.map Tensor.shape)) →
    ∀ {x y v : Tensor β}, x.shape = B :: s → y.shape = B :: s' → v.shape = [B, k] → VjpBoth R m (N.modIn q fn) N.mod N.paramIds sf x y v B n k p
  | _, _, _, _, _, .linear id wId bId i o hi ho, hN, hnd, hS, hF, x, y, v, hx, hy, hv => by
    obtain ⟨r, h1, h2, h3⟩ := Net.vjpR R hone q fn m sf hB (.linear id wId bId i o hi ho) hN hnd hS hF hx hy hv
    obtain ⟨ro, e1, e2⟩ := linear_relW R (W := sf.param wId) (bias := bId.map sf.param) (y := some y) hv hx hB hi ho
    refine ⟨r, some ro, h1, ?_, h2, fun b => ?_⟩
    · show (Linear.vjp (sf.param wId) (bId.map sf.param) x (some y) v .weight, sf) = _
      rw [e1]
    · obtain ⟨w, hw, hs⟩ := h3 b
      refine ⟨w, hw, fun T hT hp v' hv' he => ⟨hs T hT hp v' hv' he, ?_⟩⟩
      obtain ⟨ro', a1, a2⟩ := e2 b (T.param wId) (bId.map T.param) (some (y.map R.val)) v' hv' he (by simp)
      refine ⟨some ro', ?_, ?_⟩
      · show (Linear.vjp (T.param wId) (bId.map T.param) (x.map R.val) (some (y.map R.val)) v' .weight, T) = _
        rw [a1]
      · have : (if (bId.map sf.param).isSome then o else 0) = biasLen bId o := by cases bId <;> rfl
        rw [this] at a2
        exact a2
  | _, _, _, _, _, .act a id s n hs hn, hN, hnd, hS, hF, x, y, v, hx, hy, hv => by
    have ha : a = .relu := hN
    subst ha
    exact (Net.vjpR R hone q fn m sf hB (.act .relu id s n hs hn) hN hnd hS hF hx hy hv).both R rfl fun _ _ _ _ => rfl
  | _, _, _, _, _, .flatten id s n hs hn, hN, hnd, hS, hF, x, y, v, hx, hy, hv =>
    (Net.vjpR R hone q fn m sf hB (.flatten id s n hs hn) hN hnd hS hF hx hy hv).both R rfl fun _ _ _ _ => rfl
  | _, _, _, _, _, .reshape id s dims n hs hd hn z hz, hN, hnd, hS, hF, x, y, v, hx, hy, hv =>
    (Net.vjpR R hone q fn m sf hB (.reshape id s dims n hs hd hn z hz) hN hnd hS hF hx hy hv).both R rfl fun _ _ _ _ => rfl
  | _, _, _, _, _, .l2norm _ _ _ _ _ _ _, hN, _, _, _, _, _, _, _, _, _ => hN.elim
  | _, _, _, _, _, .conv _ _ _ _, hN, _, _, _, _, _, _, _, _, _ => hN.elim
  | _, _, _, _, _, .upsample _ _ _ _ _ _ _ _ _, hN, _, _, _, _, _, _, _, _, _ => hN.elim
  | _, _, _, _, _, .maxpool _ _, hN, _, _, _, _, _, _, _, _, _ => hN.elim
  | _, _, _, _, _, .skip _ _ _, hN, _, _, _, _, _, _, _, _, _ => hN.elim
  | _, _, _, _, _, .seq id c, hN, hnd, hS, hF, x, y, v, hx, hy, hv => by
    simp only [Net.Fits] at hF
    obtain ⟨⟨L, hL, hT⟩, hF⟩ := hF
    obtain ⟨L', hL', rfl⟩ := Option.map_eq_some_iff.1 hL
    obtain ⟨r, ts, h1, g1, h2, h3⟩ := Chain.vjpBoth hone q fn m sf hB id [] [] hL' c hN hnd hS hT hF hv
    simp only [List.append_nil] at h1 g1
    obtain ⟨w0, -, hts⟩ := h3 ⟨0, hB⟩
    obtain ⟨-, tso, hcat, -⟩ : True ∧ ∃ ro, Sequential.catOrNone 1 ts = .ok ro ∧ True := by
      obtain ⟨-, ts', -, ro, ro', c1, -⟩ := hts ((sf.image R.val).withParams w0) rfl (fun i _ => rfl) (v.map R.val) hv fun _ => rfl
      exact ⟨trivial, ro, c1, trivial⟩
    refine ⟨r, tso, ?_, ?_, h2, fun b => ?_⟩
    · refine Prog.bind_ok (s' := sf) (b := ()) (by simp [Prog.assert]) |>.trans ?_
      refine Prog.bind_ok (s' := sf) (b := y) rfl |>.trans ?_
      refine Prog.bind_ok (s' := sf) (b := r) ?_ |>.trans rfl
      rw [modsIn_length]; exact h1
    · refine Prog.bind_ok (s' := sf) (b := ()) (by simp [Prog.assert]) |>.trans ?_
      refine Prog.bind_ok (s' := sf) (b := y) rfl |>.trans ?_
      refine Prog.bind_ok (s' := sf) (b := ts) ?_ |>.trans ?_
      · rw [modsIn_length]; exact (g1 []).trans (by rw [List.append_nil])
      · show (Sequential.catOrNone 1 ts, sf) = _
        rw [hcat]
    · obtain ⟨w, hw, hsim⟩ := h3 b
      refine ⟨w, hw, fun T hT hp v' hv' he => ?_⟩
      obtain ⟨⟨r', e1, e2, e3⟩, ts', f1, ro, ro', f2, f3, f4⟩ := hsim T hT hp v' hv' he
      simp only [List.append_nil] at e1 f1
      refine ⟨⟨r', ?_, e2, e3⟩, ro', ?_, ?_⟩
      · refine Prog.bind_ok (s' := T) (b := ()) (by simp [Prog.assert]) |>.trans ?_
        refine Prog.bind_ok (s' := T) (b := y.map R.val) rfl |>.trans ?_
        refine Prog.bind_ok (s' := T) (b := r') ?_ |>.trans rfl
        rw [chain_mods_length]; exact e1
      · refine Prog.bind_ok (s' := T) (b := ()) (by simp [Prog.assert]) |>.trans ?_
        refine Prog.bind_ok (s' := T) (b := y.map R.val) rfl |>.trans ?_
        refine Prog.bind_ok (s' := T) (b := ts') ?_ |>.trans ?_
        · rw [chain_mods_length]; exact (f1 []).trans (by rw [List.append_nil])
        · show (Sequential.catOrNone 1 ts', T) = _
          rw [f3]
      · rw [hcat] at f2
        injection f2 with f2
        rw [f2]
        exact f4
theorem Chain.vjpBoth (hone : ∀ a : β, R.val (a * 1) = R.val a) (q : ℝ → β) (fn : (ℝ → ℝ) → β → β) (m : Nat) (sf : Store β) {B : Nat} (hB : 0 < B)
    (id : Nat) (tl : List (Mod β)) (tl' : List (Mod ℝ)) {L : List (Tensor β)} (hL : sf.fmaps id = some L) :
    {s s' : List Nat} → {n k p l : Nat} → (c : Chain s n s' k p l) → c.ReluSeq m → c.paramIds.Nodup → c.Shapes (sf.image R.val) →
    c.Trail B (L.map Tensor.shape) → c.Fits B (fun i => (sf.fmaps i).map (List.map Tensor.shape)) →
    ∀ {v : Tensor β}, v.shape = [B, k] →
    ∃ r ts, Sequential.vjpInput id (c.modsIn q fn ++ tl) l v sf = (.ok r, sf) ∧
      (∀ vs, Sequential.vjpWeight id (c.modsIn q fn ++ tl) l v vs sf = (.ok (ts ++ vs), sf)) ∧ r.shape = [B, n] ∧
      ∀ b : Fin B, ∃ w, Close R m sf w ∧ ∀ T : Store ℝ, T.fmaps = (sf.image R.val).fmaps →
        (∀ i ∈ c.paramIds, T.param i = ⟨(sf.param i).shape, w i⟩) → ∀ v' : Tensor ℝ, v'.shape = [B, k] →
        (∀ j : Fin k, v'.data (b * k + j) = R.val (v.data (b * k + j))) →
        (∃ r', Sequential.vjpInput id (c.mods ++ tl') l v' T = (.ok r', T) ∧ r'.shape = [B, n] ∧
          ∀ j : Fin n, r'.data (b * n + j) = R.val (r.data (b * n + j))) ∧
        ∃ ts', (∀ vs, Sequential.vjpWeight id (c.mods ++ tl') l v' vs T = (.ok (ts' ++ vs), T)) ∧ RelCat R B p b ts ts'
  | _, _, _, _, _, _, .nil s n hs hn, hN, hnd, hS, hT, hF, v, hv =>
    ⟨v, [], rfl, fun _ => rfl, hv, fun b => ⟨_, Close.refl R m sf, fun T hT hp v' hv' he => ⟨⟨v', rfl, hv', he⟩, [], fun _ => rfl, none, none, rfl, rfl, rfl⟩⟩⟩
  | _, _, _, _, _, _, @Chain.snoc sI sM sO n j k p p' l c N, hN, hnd, hS, hT, hF, v, hv => by
    simp only [Chain.Trail] at hT
    simp only [Chain.Fits] at hF
    obtain ⟨hT1, hT2⟩ := hT
    have hl := hT1.last
    rw [List.getElem?_map, Option.map_eq_some_iff] at hl hT2
    obtain ⟨x, hxL, hx⟩ := hl
    obtain ⟨y, hyL, hy⟩ := hT2
    have hnd' := List.nodup_append.1 (show (c.paramIds ++ N.paramIds).Nodup from hnd)
    obtain ⟨u, ro, a1, a1w, a2, a3⟩ := Net.vjpBoth hone q fn m sf hB N hN.2 hnd'.2.1 hS.2 hF.2 hx hy hv
    obtain ⟨r, ts, b1, b1w, b2, b3⟩ := Chain.vjpBoth hone q fn m sf hB id (N.modIn q fn :: tl) (N.mod :: tl') hL c hN.1 hnd'.1 hS.1 hT1 hF.1 a2
    refine ⟨r, ts ++ ro.toList, ?_, fun vs => ?_, b2, fun b => ?_⟩
    · simp only [Chain.modsIn, List.append_assoc, List.singleton_append]
      refine Prog.bind_ok (s' := sf) (b := N.modIn q fn) (by simp [Sequential.child, modsIn_length]) |>.trans ?_
      refine Prog.bind_ok (fmap_some hL hxL) |>.trans ?_
      refine Prog.bind_ok (fmap_some hL hyL) |>.trans ?_
      refine Prog.bind_ok a1 |>.trans ?_
      exact Prog.bind_ok (s' := sf) (b := u) rfl |>.trans b1
    · simp only [Chain.modsIn, List.append_assoc, List.singleton_append]
      exact vjpWeight_step (by simp [modsIn_length]) (fmap_some hL hxL) (fmap_some hL hyL) a1w a1 (b1w _)
    · obtain ⟨w1, hw1, hs1⟩ := a3 b
      obtain ⟨w2, hw2, hs2⟩ := b3 b
      refine ⟨fun i j => if i ∈ N.paramIds then w1 i j else w2 i j, fun i j => ?_, fun T hT hp v' hv' he => ?_⟩
      · dsimp only
        split_ifs
        · exact hw1 i j
        · exact hw2 i j
      · have hL' : T.fmaps id = some (L.map (Tensor.map R.val)) := by rw [hT]; simp [Store.image, hL]
        obtain ⟨⟨u', c1, c2, c3⟩, ro', c4, c5⟩ := hs1 T hT (fun i hi => by
          rw [hp i (List.mem_append.2 (.inr hi))]; simp only [hi, if_true]) v' hv' he
        obtain ⟨⟨r', d1, d2, d3⟩, ts', d4, d5⟩ := hs2 T hT (fun i hi => by
          rw [hp i (List.mem_append.2 (.inl hi))]
          have : i ∉ N.paramIds := fun h => hnd'.2.2 i hi i h rfl
          simp only [this, if_false]) u' c2 c3
        have fx := fmap_some hL' (k := l) (t := x.map R.val) (by simp [hxL])
        have fy := fmap_some hL' (k := l + 1) (t := y.map R.val) (by simp [hyL])
        refine ⟨⟨r', ?_, d2, d3⟩, ts' ++ ro'.toList, fun vs => ?_, d5.snoc R c5⟩
        · simp only [Chain.mods, List.append_assoc, List.singleton_append]
          refine Prog.bind_ok (s' := T) (b := N.mod) (by simp [Sequential.child, chain_mods_length]) |>.trans ?_
          refine Prog.bind_ok fx |>.trans ?_
          refine Prog.bind_ok fy |>.trans ?_
          refine Prog.bind_ok c1 |>.trans ?_
          exact Prog.bind_ok (s' := T) (b := u') rfl |>.trans d1
        · simp only [Chain.mods, List.append_assoc, List.singleton_append]
          exact vjpWeight_step (by simp [chain_mods_length]) fx fy c4 c1 (d4 _)
end

/-- with `val=None` vjp wrt the weights first calls `forward` -/
theorem Net.vjpW_none (q : ℝ → β) (fn : (ℝ → ℝ) → β → β) {m : Nat} {s s' : List Nat} {n k p : Nat} (N : Net s n s' k p) (hN : N.ReluSeq m)
    {sf sf' : Store β} {x y : Tensor β} (h : (N.modIn q fn).forward x sf = (.ok y, sf')) (v : Tensor β) :
    (N.modIn q fn).vjp x none v .weight sf = (N.modIn q fn).vjp x (some y) v .weight sf' := by
  cases N with
  | linear id wId bId i o hi ho => injection h with h h2; rw [h2]; rfl
  | act a id s n hs hn =>
    have ha : a = .relu := hN
    subst ha
    injection h with h h2
    rw [h2]
    rfl
  | flatten id s n hs hn => injection h with h h2; rw [h2]; rfl
  | reshape id s dims n hs hd hn z hz => injection h with h h2; rw [h2]; rfl
  | seq id c =>
    refine (Prog.bind_ok (s' := sf) (b := ()) (by simp [Prog.assert])).trans ?_
    refine Eq.trans ?_ (Prog.bind_ok (s' := sf') (b := ()) (by simp [Prog.assert])).symm
    exact (Prog.bind_ok h).trans rfl
  | _ => exact hN.elim
end
end NNJ
