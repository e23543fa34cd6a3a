import Verif.Spec.RoundRows
import Verif.Proofs.RoundVjpW

/-! The rows of mjp are vjps, in any arithmetic. -/

namespace NNJ
open Tensor

section
variable {α : Type}

theorem IsRow.cat {B r m n i : Nat} {A a C c : Tensor α} (hi : i < r) (ha : IsRow B r m i A a) (hc : IsRow B r n i C c) :
    ∃ R t, cat2 A C 2 = .ok R ∧ cat2 a c 1 = .ok t ∧ IsRow B r (m + n) i R t := by
  refine ⟨ofFn [B, r, m + n] fun idx => if idx.getD 2 0 < m then A.get idx else C.get (idx.set 2 (idx.getD 2 0 - m)),
    ofFn [B, m + n] fun idx => if idx.getD 1 0 < m then a.get idx else c.get (idx.set 1 (idx.getD 1 0 - m)), ?_, ?_, rfl, rfl, fun b j => ?_⟩
  · simp only [cat2, ha.1, hc.1, List.getElem?_cons_succ, List.getElem?_cons_zero, List.set, if_true]
  · simp only [cat2, ha.2.1, hc.2.1, List.getElem?_cons_succ, List.getElem?_cons_zero, List.set, if_true]
  · rw [get_ofFn _ (by simp [hi]), get_ofFn _ (by simp)]
    simp only [List.getD_cons_succ, List.getD_cons_zero, List.set]
    split_ifs with h
    · exact ha.2.2 b ⟨j, h⟩
    · exact hc.2.2 b ⟨j - m, by omega⟩

/-- both absent, when there are no parameters, or both present -/
def RowO (B r p i : Nat) : Option (Tensor α) → Option (Tensor α) → Prop
  | none, none => p = 0
  | some G, some g => 0 < p ∧ IsRow B r p i G g
  | _, _ => False

def RowCat (B r p i : Nat) (ts ts' : List (Tensor α)) : Prop :=
  ∃ ro ro', Sequential.catOrNone 2 ts = .ok ro ∧ Sequential.catOrNone 1 ts' = .ok ro' ∧ RowO B r p i ro ro'

theorem catNone_nil {α : Type} {d : Nat} {ts : List (Tensor α)} (h : Sequential.catOrNone d ts = .ok none) : ts = [] := by
  unfold Sequential.catOrNone at h
  split_ifs at h with hl
  · cases hc : Tensor.cat d ts with
    | error e => rw [hc] at h; cases h
    | ok r => rw [hc] at h; cases h
  · exact List.length_eq_zero_iff.1 (Nat.eq_zero_of_not_pos hl)

theorem catNone_append {α : Type} {d : Nat} {ts : List (Tensor α)} {r t u : Tensor α} (h : Sequential.catOrNone d ts = .ok (some r)) (hc : cat2 r t d = .ok u) :
    Sequential.catOrNone d (ts ++ [t]) = .ok (some u) := by
  obtain ⟨h1, h2⟩ : ts ≠ [] ∧ Tensor.cat d ts = .ok r := by
    unfold Sequential.catOrNone at h
    split_ifs at h with hl
    · refine ⟨List.length_pos_iff.1 hl, ?_⟩
      cases hc : Tensor.cat d ts with
      | error e => rw [hc] at h; cases h
      | ok r' => rw [hc] at h; injection h with h; injection h with h; rw [h]
    · cases h
  unfold Sequential.catOrNone
  rw [if_pos (by simp), cat_append h1, h2]
  show some <$> cat2 r t d = _
  rw [hc]
  rfl

theorem catNone_one {α : Type} {d : Nat} {t : Tensor α} (h : d < t.shape.length) : Sequential.catOrNone d [t] = .ok (some t) := by
  unfold Sequential.catOrNone
  rw [if_pos (by simp)]
  simp [Tensor.cat, h]

theorem RowCat.snoc {B r p q i : Nat} (hi : i < r) {ts ts' : List (Tensor α)} {ro ro' : Option (Tensor α)}
    (h : RowCat B r p i ts ts') (hr : RowO B r q i ro ro') : RowCat B r (p + q) i (ts ++ ro.toList) (ts' ++ ro'.toList) := by
  obtain ⟨so, so', h1, h2, h3⟩ := h
  cases ro with
  | none =>
    cases ro' with
    | some _ => exact hr.elim
    | none =>
      have : q = 0 := hr
      subst this
      simp only [Option.toList_none, List.append_nil, Nat.add_zero]
      exact ⟨so, so', h1, h2, h3⟩
  | some t =>
    cases ro' with
    | none => exact hr.elim
    | some t' =>
      obtain ⟨hq, ht⟩ := hr
      simp only [Option.toList_some]
      cases so with
      | none =>
        cases so' with
        | some _ => exact h3.elim
        | none =>
          have : p = 0 := h3
          subst this
          rw [catNone_nil h1, catNone_nil h2, Nat.zero_add]
          exact ⟨some t, some t', catNone_one (by simp [ht.1]), catNone_one (by simp [ht.2.1]), hq, ht⟩
      | some g =>
        cases so' with
        | none => exact h3.elim
        | some g' =>
          obtain ⟨hp, hg⟩ := h3
          obtain ⟨c, c', c1, c2, c3⟩ := hg.cat hi ht
          exact ⟨some c, some c', catNone_append h1 c1, catNone_append h2 c2, by omega, c3⟩

theorem mjpWeight_step {id : Nat} {ms : List (Mod α)} {k : Nat} {s : Store α} {m : Mod α} {x y v u : Tensor α} {vk : Option (Tensor α)}
    {vs : List (Tensor α)} {R : Res (List (Tensor α)) × Store α} (hm : ms[k]? = some m) (hx : Sequential.fmap id k s = (.ok x, s))
    (hy : Sequential.fmap id (k + 1) s = (.ok y, s)) (h1 : m.mjp x (some y) (some v) .weight s = (.ok vk, s))
    (h2 : m.mjp x (some y) (some v) .input s = (.ok (some u), s)) (h3 : Sequential.mjpWeight id ms k u (vk.toList ++ vs) s = R) :
    Sequential.mjpWeight id ms (k + 1) v vs s = R := by
  refine Prog.bind_ok (s' := s) (b := m) (by simp [Sequential.child, hm]) |>.trans ?_
  refine Prog.bind_ok hx |>.trans ?_
  refine Prog.bind_ok hy |>.trans ?_
  refine Prog.bind_ok h1 |>.trans ?_
  cases k with
  | zero => exact h3
  | succ k =>
    refine Prog.bind_ok h2 |>.trans ?_
    exact Prog.bind_ok (s' := s) (b := u) rfl |>.trans h3
end

section
variable {α : Type} [Zero α] [One α] [Add α] [Mul α]

theorem linear_row {M v W : Tensor α} {B r i o j : Nat} (hj : j < r) (h : IsRow B r o j M v) (hW : W.shape = [o, i]) :
    ∃ G g, einsum% "bij,jk->bik" [M, W] = .ok G ∧ einsum% "bj,jk->bk" [v, W] = .ok g ∧ IsRow B r i j G g := by
  have a : Ret (einsum% "bij,jk->bik" [M, W]) fun G => G.shape = [B, r, i] ∧ ∀ (b : Fin B) (k : Fin i),
      G.get [↑b, j, ↑k] = sumRange o fun l => M.get [↑b, j, l] * W.get [l, ↑k] := by
    refine ein_ret (dm [('b', B), ('i', r), ('j', o), ('k', i)]) (by simp [ShapesFit, dm, h.1, hW]) (by simp) fun G hs hg => ⟨by simpa [dm] using hs, ?_⟩
    intro b k
    rw [hg _ (by simp [dm, hj])]
    simp [sumLabels, contracted, envGet, prodList, plainProd, dm]
  have c : Ret (einsum% "bj,jk->bk" [v, W]) fun g => g.shape = [B, i] ∧ ∀ (b : Fin B) (k : Fin i),
      g.get [↑b, ↑k] = sumRange o fun l => v.get [↑b, l] * W.get [l, ↑k] := by
    refine ein_ret (dm [('b', B), ('j', o), ('k', i)]) (by simp [ShapesFit, dm, h.2.1, hW]) (by simp) fun g hs hg => ⟨by simpa [dm] using hs, ?_⟩
    intro b k
    rw [hg _ (by simp [dm])]
    simp [sumLabels, contracted, envGet, prodList, plainProd, dm]
  obtain ⟨G, a1, a2, a3⟩ := a
  obtain ⟨g, c1, c2, c3⟩ := c
  refine ⟨G, g, a1, c1, a2, c2, fun b k => ?_⟩
  rw [a3, c3]
  exact sumRange_congr fun l hl => by rw [h.2.2 b ⟨l, hl⟩]

theorem outer_row {M v x : Tensor α} {B r i o j : Nat} (hj : j < r) (hB : 0 < B) (hi : 0 < i) (h : IsRow B r o j M v) (hx : x.shape = [B, i]) :
    ∃ G g, (do let r' ← einsum% "bri,bj->brij" [M, x]; r'.reshapeInfer [B, r] []) = .ok G ∧
      (do let r ← einsum% "bi,bj->bij" [v, x]; r.reshapeInfer [B] []) = .ok g ∧ IsRow B r (o * i) j G g := by
  have a : Ret (einsum% "bri,bj->brij" [M, x]) fun G => G.shape = [B, r, o, i] ∧ ∀ (b : Fin B) (l : Fin o) (k : Fin i),
      G.get [↑b, j, ↑l, ↑k] = M.get [↑b, j, ↑l] * x.get [↑b, ↑k] := by
    refine ein_ret (dm [('b', B), ('r', r), ('i', o), ('j', i)]) (by simp [ShapesFit, dm, h.1, hx]) (by simp) fun G hs hg => ⟨by simpa [dm] using hs, ?_⟩
    intro b l k
    rw [hg _ (by simp [dm, hj])]
    simp [sumLabels, contracted, envGet, prodList, plainProd, dm]
  obtain ⟨G, a1, a2, a3⟩ := a
  obtain ⟨g, c1, c2, c3⟩ := outer_eval h.2.1 hx hB
  have hBr : 0 < B * r := Nat.mul_pos hB (by omega)
  refine ⟨⟨[B, r, o * i], G.data⟩, g, ?_, c1, rfl, c2, fun b c => ?_⟩
  · rw [a1]
    show G.reshapeInfer [B, r] [] = _
    have e : B * (r * (o * i)) = B * r * (o * i) := by ring
    simp only [reshapeInfer, size_cons, size_nil, mul_one, numel, a2, e, Nat.mul_mod_right, if_true, Nat.ne_of_gt hBr, if_false, Nat.mul_div_cancel_left _ hBr]
    rfl
  · obtain ⟨c, hc⟩ := c
    have hl : c / i < o := Nat.div_lt_of_lt_mul (by rwa [Nat.mul_comm])
    have hk : c % i < i := Nat.mod_lt _ hi
    have hd : c / i * i + c % i = c := by rw [Nat.mul_comm]; exact Nat.div_add_mod _ _
    have e1 := a3 b ⟨_, hl⟩ ⟨_, hk⟩
    have e2 := c3 b ⟨_, hl⟩ ⟨_, hk⟩
    rw [get4 a2] at e1
    dsimp only at e1 e2 ⊢
    rw [hd] at e1 e2
    rw [get3 rfl, get2 c2, e2]
    show G.data _ = _
    rw [e1, h.2.2 b ⟨_, hl⟩, get2 h.2.1, get2 hx]

theorem linear_rowW {M v x W : Tensor α} {bias y y' : Option (Tensor α)} {B r i o j : Nat} (hj : j < r) (hB : 0 < B) (hi : 0 < i) (ho : 0 < o)
    (h : IsRow B r o j M v) (hx : x.shape = [B, i]) :
    ∃ G g, Linear.mjp W bias x y (some M) .weight = .ok (some G) ∧ Linear.vjp W bias x y' v .weight = .ok (some g) ∧
      RowO B r (o * i + if bias.isSome then o else 0) j (some G) (some g) := by
  obtain ⟨G, g, h1, h2, h3⟩ := outer_row hj hB hi h hx
  have hoi : 0 < o * i := Nat.mul_pos ho hi
  have hd : x.dims2 = .ok (B, i) := by simp [dims2, hx]
  have e : ∀ f : Tensor α → Res (Option (Tensor α)), (do
      let (b, _) ← x.dims2
      let r ← einsum% "bi,bj->bij" [v, x]
      let r ← r.reshapeInfer [b] []
      f r) = f g := by
    intro f
    rw [hd]
    show ((einsum% "bi,bj->bij" [v, x]) >>= fun r => r.reshapeInfer [B] [] >>= f) = f g
    have h1' : ((einsum% "bi,bj->bij" [v, x]) >>= fun r => r.reshapeInfer [B] []) = Except.ok g := h2
    rw [← bind_assoc, h1']
    rfl
  have e' : ∀ f : Tensor α → Res (Option (Tensor α)), (do
      let (b, _) ← x.dims2
      let r ← M.dim 1
      let b' ← M.dim 0
      assertR (b = b')
      let o ← einsum% "bri,bj->brij" [M, x]
      let o ← o.reshapeInfer [b, r] []
      f o) = f G := by
    intro f
    have d0 : M.dim 0 = .ok B := by simp [dim, h.1]
    have d1 : M.dim 1 = .ok r := by simp [dim, h.1]
    rw [hd, d0, d1]
    show (assertR (B = B) >>= fun _ => (einsum% "bri,bj->brij" [M, x]) >>= fun o => o.reshapeInfer [B, r] [] >>= f) = f G
    have h1' : ((einsum% "bri,bj->brij" [M, x]) >>= fun o => o.reshapeInfer [B, r] []) = Except.ok G := h1
    rw [show assertR (B = B) = .ok () by simp [assertR]]
    show ((einsum% "bri,bj->brij" [M, x]) >>= fun o => o.reshapeInfer [B, r] [] >>= f) = f G
    rw [← bind_assoc, h1']
    rfl
  cases bias with
  | none => exact ⟨G, g, e' fun r => pure (some r), e fun r => pure (some r), by simpa using hoi, by simpa using h3⟩
  | some c =>
    obtain ⟨K, t, a1, a2, a3⟩ := h3.cat hj h
    refine ⟨K, t, (e' fun r => some <$> cat2 r M 2).trans (by rw [a1]; rfl), (e fun r => some <$> cat2 r v 1).trans (by rw [a2]; rfl), ?_, by simpa using a3⟩
    simp only [Option.isSome_some, if_true]
    omega

theorem relu_row [LT α] [DecidableLT α] {x y M v : Tensor α} {B r n j : Nat} {s : List Nat} (hj : j < r) (hy : y.shape = B :: s) (hs : size s = n) (hB : 0 < B)
    (h : IsRow B r n j M v) : ∃ G g, (Activation.relu : PureLayer α).mjp x (some y) (some M) .input = .ok (some G) ∧
      (Activation.relu : PureLayer α).vjp x (some y) v .input = .ok (some g) ∧ IsRow B r n j G g := by
  have e : B * size s / B = n := by rw [hs, Nat.mul_div_cancel_left _ hB]
  have hd : (y.map fun v => if 0 < v then (1 : α) else 0).reshapeInfer [B] [] = .ok ⟨[B, n], (y.map fun v => if 0 < v then (1 : α) else 0).data⟩ := by
    simp only [reshapeInfer, size_cons, size_nil, mul_one, numel, Tensor.map, hy, Nat.mul_mod_right, if_true, Nat.ne_of_gt hB, if_false, e]
    rfl
  obtain ⟨g, h1, h2, h3⟩ := relu_vjp_eval (x := x) hy hs hB h.2.1
  have a : Ret (einsum% "bij,bj->bij" [M, ⟨[B, n], (y.map fun v => if 0 < v then (1 : α) else 0).data⟩]) fun G => G.shape = [B, r, n] ∧
      ∀ (b : Fin B) (k : Fin n), G.get [↑b, j, ↑k] =
        M.get [↑b, j, ↑k] * (⟨[B, n], (y.map fun v => if 0 < v then (1 : α) else 0).data⟩ : Tensor α).get [↑b, ↑k] := by
    refine ein_ret (dm [('b', B), ('i', r), ('j', n)]) (by simp [ShapesFit, dm, h.1]) (by simp) fun G hs hg => ⟨by simpa [dm] using hs, ?_⟩
    intro b k
    rw [hg _ (by simp [dm, hj])]
    simp [sumLabels, contracted, envGet, prodList, plainProd, dm]
  obtain ⟨G, a1, a2, a3⟩ := a
  refine ⟨G, g, ?_, h1, a2, h2, fun b k => ?_⟩
  · show (Activation.jacobian _ Activation.reluDiag x (some y) .input true >>= fun d => match d with | none => pure none | some d => some <$> einsum% "bij,bj->bij" [M, d]) = _
    have : Activation.jacobian (fun x => .ok (x.map Activation.reluF)) Activation.reluDiag x (some y) .input true =
        .ok (some ⟨[B, n], (y.map fun v => if 0 < v then (1 : α) else 0).data⟩) := by
      show (y.dim 0 >>= fun b => (Activation.reluDiag x y).reshapeInfer [b] [] >>= _) = _
      rw [show y.dim 0 = .ok B by simp [dim, hy]]
      show ((Activation.reluDiag x y).reshapeInfer [B] [] >>= _) = _
      rw [show Activation.reluDiag x y = y.map fun v => if 0 < v then (1 : α) else 0 from rfl, hd]
      rfl
    rw [this]
    show some <$> einsum% "bij,bj->bij" [M, _] = _
    rw [a1]
    rfl
  · rw [a3, h.2.2, get2 h2, get2 h.2.1, h3]
    rw [get2 rfl]
    rfl
end

section
set_option linter.unusedSectionVars false
variable {β : Type} [Zero β] [One β] [Add β] [Sub β] [Mul β] [Neg β] [Div β] [NatCast β] [LT β] [DecidableLT β] [Trans β] (f : β → ℝ)

def RowR (M : Mod β) (sf : Store β) (x y A v : Tensor β) (B r n p j : Nat) : Prop :=
  ∃ G g Go go, M.mjp x (some y) (some A) .input sf = (.ok (some G), sf) ∧ M.vjp x (some y) v .input sf = (.ok (some g), sf) ∧ IsRow B r n j G g ∧
    M.mjp x (some y) (some A) .weight sf = (.ok Go, sf) ∧ M.vjp x (some y) v .weight sf = (.ok go, sf) ∧ RowO B r p j Go go

mutual
theorem Net.rowR (q : ℝ → β) (fn : (ℝ → ℝ) → β → β) (m : Nat) (sf : Store β) {B r j : Nat} (hB : 0 < B) (hj : j < r) :
    {s s' : List Nat} → {n k p : Nat} → (N : Net s n s' k p) → N.ReluSeq m → N.Shapes (sf.image f) →
    N.Fits B (fun i => (sf.fmaps i).map (List.map Tensor.shape)) →
    ∀ {x y A v : Tensor β}, x.shape = B :: s → y.shape = B :: s' → IsRow B r k j A v → RowR (N.modIn q fn) sf x y A v B r n p j
  | _, _, _, _, _, .linear id wId bId i o hi ho, hN, hS, hF, x, y, A, v, hx, hy, hv => by
    obtain ⟨G, g, h1, h2, h3⟩ := linear_row hj hv (W := sf.param wId) hS.1
    obtain ⟨Go, go, e1, e2, e3⟩ := linear_rowW (W := sf.param wId) (bias := bId.map sf.param) (y := some y) (y' := some y) hj hB hi ho hv hx
    refine ⟨G, g, some Go, some go, ?_, ?_, h3, ?_, ?_, ?_⟩
    · show (some <$> einsum% "bij,jk->bik" [A, sf.param wId], sf) = _
      rw [h1]; rfl
    · show (some <$> einsum% "bj,jk->bk" [v, sf.param wId], sf) = _
      rw [h2]; rfl
    · show (Linear.mjp (sf.param wId) (bId.map sf.param) x (some y) (some A) .weight, sf) = _
      rw [e1]
    · show (Linear.vjp (sf.param wId) (bId.map sf.param) x (some y) v .weight, sf) = _
      rw [e2]
    · have : (if (bId.map sf.param).isSome then o else 0) = biasLen bId o := by cases bId <;> rfl
      rw [this] at e3
      exact e3
  | _, _, _, _, _, .act a id s n hs hn, hN, hS, hF, x, y, A, v, hx, hy, hv => by
    have ha : a = .relu := hN
    subst ha
    obtain ⟨G, g, h1, h2, h3⟩ := relu_row (x := x) hj hy hs hB hv
    refine ⟨G, g, none, none, ?_, ?_, h3, rfl, rfl, rfl⟩
    · show ((Activation.relu : PureLayer β).mjp x (some y) (some A) .input, sf) = _
      rw [h1]
    · show ((Activation.relu : PureLayer β).vjp x (some y) v .input, sf) = _
      rw [h2]
  | _, _, _, _, _, .flatten id s n hs hn, hN, hS, hF, x, y, A, v, hx, hy, hv => ⟨A, v, none, none, rfl, rfl, hv, rfl, rfl, rfl⟩
  | _, _, _, _, _, .reshape id s dims n hs hd hn z hz, hN, hS, hF, x, y, A, v, hx, hy, hv => ⟨A, v, none, none, rfl, rfl, hv, rfl, rfl, rfl⟩
  | _, _, _, _, _, .l2norm _ _ _ _ _ _ _, hN, _, _, _, _, _, _, _, _, _ => hN.elim
  | _, _, _, _, _, .conv _ _ _ _, hN, _, _, _, _, _, _, _, _, _ => hN.elim
  | _, _, _, _, _, .upsample _ _ _ _ _ _ _ _ _, hN, _, _, _, _, _, _, _, _, _ => hN.elim
  | _, _, _, _, _, .maxpool _ _, hN, _, _, _, _, _, _, _, _, _ => hN.elim
  | _, _, _, _, _, .skip _ _ _, hN, _, _, _, _, _, _, _, _, _ => hN.elim
  | _, _, _, _, _, .seq id c, hN, hS, hF, x, y, A, v, hx, hy, hv => by
    simp only [Net.Fits] at hF
    obtain ⟨⟨L, hL, hT⟩, hF⟩ := hF
    obtain ⟨L', hL', rfl⟩ := Option.map_eq_some_iff.1 hL
    obtain ⟨G, g, ts, ts', h1, h2, h3, h4, h5, Go, go, h6, h7, h8⟩ := Chain.rowR q fn m sf hB hj id [] hL' c hN hS hT hF hv
    simp only [List.append_nil] at h1 h2 h4 h5
    refine ⟨G, g, Go, go, ?_, ?_, h3, ?_, ?_, h8⟩
    · refine Prog.bind_ok (s' := sf) (b := ()) (by simp [Prog.assert]) |>.trans ?_
      refine Prog.bind_ok (s' := sf) (b := y) rfl |>.trans ?_
      refine Prog.bind_ok (s' := sf) (b := A) rfl |>.trans ?_
      refine Prog.bind_ok (s' := sf) (b := G) ?_ |>.trans rfl
      rw [modsIn_length]; exact h1
    · refine Prog.bind_ok (s' := sf) (b := ()) (by simp [Prog.assert]) |>.trans ?_
      refine Prog.bind_ok (s' := sf) (b := y) rfl |>.trans ?_
      refine Prog.bind_ok (s' := sf) (b := g) ?_ |>.trans rfl
      rw [modsIn_length]; exact h2
    · refine Prog.bind_ok (s' := sf) (b := ()) (by simp [Prog.assert]) |>.trans ?_
      refine Prog.bind_ok (s' := sf) (b := y) rfl |>.trans ?_
      refine Prog.bind_ok (s' := sf) (b := A) rfl |>.trans ?_
      refine Prog.bind_ok (s' := sf) (b := ts) ?_ |>.trans ?_
      · rw [modsIn_length]; exact (h4 []).trans (by rw [List.append_nil])
      · show (Sequential.catOrNone 2 ts, sf) = _
        rw [h6]
    · refine Prog.bind_ok (s' := sf) (b := ()) (by simp [Prog.assert]) |>.trans ?_
      refine Prog.bind_ok (s' := sf) (b := y) rfl |>.trans ?_
      refine Prog.bind_ok (s' := sf) (b := ts') ?_ |>.trans ?_
      · rw [modsIn_length]; exact (h5 []).trans (by rw [List.append_nil])
      · show (Sequential.catOrNone 1 ts', sf) = _
        rw [h7]
theorem Chain.rowR (q : ℝ → β) (fn : (ℝ → ℝ) → β → β) (m : Nat) (sf : Store β) {B r j : Nat} (hB : 0 < B) (hj : j < r)
    (id : Nat) (tl : List (Mod β)) {L : List (Tensor β)} (hL : sf.fmaps id = some L) :
    {s s' : List Nat} → {n k p l : Nat} → (c : Chain s n s' k p l) → c.ReluSeq m → c.Shapes (sf.image f) →
    c.Trail B (L.map Tensor.shape) → c.Fits B (fun i => (sf.fmaps i).map (List.map Tensor.shape)) →
    ∀ {A v : Tensor β}, IsRow B r k j A v →
    ∃ G g ts ts', Sequential.mjpInput id (c.modsIn q fn ++ tl) l A sf = (.ok G, sf) ∧ Sequential.vjpInput id (c.modsIn q fn ++ tl) l v sf = (.ok g, sf) ∧
      IsRow B r n j G g ∧ (∀ vs, Sequential.mjpWeight id (c.modsIn q fn ++ tl) l A vs sf = (.ok (ts ++ vs), sf)) ∧
      (∀ vs, Sequential.vjpWeight id (c.modsIn q fn ++ tl) l v vs sf = (.ok (ts' ++ vs), sf)) ∧ RowCat B r p j ts ts'
  | _, _, _, _, _, _, .nil s n hs hn, hN, hS, hT, hF, A, v, hv =>
    ⟨A, v, [], [], rfl, rfl, hv, fun _ => rfl, fun _ => rfl, none, none, rfl, rfl, rfl⟩
  | _, _, _, _, _, _, @Chain.snoc sI sM sO n i k p p' l c N, hN, hS, hT, hF, A, v, hv => by
    simp only [Chain.Trail] at hT
    simp only [Chain.Fits] at hF
    obtain ⟨hT1, hT2⟩ := hT
    have hl := hT1.last
    rw [List.getElem?_map, Option.map_eq_some_iff] at hl hT2
    obtain ⟨x, hxL, hx⟩ := hl
    obtain ⟨y, hyL, hy⟩ := hT2
    obtain ⟨U, u, Uo, uo, a1, a2, a3, a4, a5, a6⟩ := Net.rowR q fn m sf hB hj N hN.2 hS.2 hF.2 hx hy hv
    obtain ⟨G, g, ts, ts', b1, b2, b3, b4, b5, b6⟩ := Chain.rowR q fn m sf hB hj id (N.modIn q fn :: tl) hL c hN.1 hS.1 hT1 hF.1 a3
    refine ⟨G, g, ts ++ Uo.toList, ts' ++ uo.toList, ?_, ?_, b3, fun vs => ?_, fun vs => ?_, b6.snoc hj a6⟩
    · simp only [Chain.modsIn, List.append_assoc, List.singleton_append]
      refine Prog.bind_ok (s' := sf) (b := N.modIn q fn) (by simp [Sequential.child, modsIn_length]) |>.trans ?_
      refine Prog.bind_ok (fmap_some hL hxL) |>.trans ?_
      refine Prog.bind_ok (fmap_some hL hyL) |>.trans ?_
      refine Prog.bind_ok a1 |>.trans ?_
      exact Prog.bind_ok (s' := sf) (b := U) rfl |>.trans b1
    · simp only [Chain.modsIn, List.append_assoc, List.singleton_append]
      refine Prog.bind_ok (s' := sf) (b := N.modIn q fn) (by simp [Sequential.child, modsIn_length]) |>.trans ?_
      refine Prog.bind_ok (fmap_some hL hxL) |>.trans ?_
      refine Prog.bind_ok (fmap_some hL hyL) |>.trans ?_
      refine Prog.bind_ok a2 |>.trans ?_
      exact Prog.bind_ok (s' := sf) (b := u) rfl |>.trans b2
    · simp only [Chain.modsIn, List.append_assoc, List.singleton_append]
      exact mjpWeight_step (by simp [modsIn_length]) (fmap_some hL hxL) (fmap_some hL hyL) a4 a1 (b4 _)
    · simp only [Chain.modsIn, List.append_assoc, List.singleton_append]
      exact vjpWeight_step (by simp [modsIn_length]) (fmap_some hL hxL) (fmap_some hL hyL) a5 a2 (b5 _)
end

/-- with `val=None` mjp first calls `forward` -/
theorem Net.mjp_val_none (q : ℝ → β) (fn : (ℝ → ℝ) → β → β) {m : Nat} {s s' : List Nat} {n k p : Nat} (N : Net s n s' k p) (hN : N.ReluSeq m)
    {sf sf' : Store β} {x y : Tensor β} (h : (N.modIn q fn).forward x sf = (.ok y, sf')) (A : Tensor β) {wrt : Wrt} (hw : wrt = .input ∨ wrt = .weight) :
    (N.modIn q fn).mjp x none (some A) wrt sf = (N.modIn q fn).mjp x (some y) (some A) wrt sf' := by
  cases N with
  | linear id wId bId i o hi ho => injection h with h h2; rw [h2]; rfl
  | act a id s n hs hn =>
    have ha : a = .relu := hN
    subst ha
    injection h with h h2
    injection h with h
    rw [h2, ← h]
    rcases hw with rfl | rfl <;> rfl
  | flatten id s n hs hn => injection h with h h2; rw [h2]; rfl
  | reshape id s dims n hs hd hn z hz => injection h with h h2; rw [h2]; rfl
  | seq id c =>
    refine (Prog.bind_ok (s' := sf) (b := ()) (by simp [Prog.assert, hw])).trans ?_
    refine Eq.trans ?_ (Prog.bind_ok (s' := sf') (b := ()) (by simp [Prog.assert, hw])).symm
    exact (Prog.bind_ok h).trans rfl
  | _ => exact hN.elim
end
end NNJ
