import Verif.Spec.RoundVjp
import Verif.Proofs.Rounding

/-! Rounding errors of vjp, as perturbations of the weights. -/

namespace NNJ
open Tensor

mutual
/-- the lists of feature maps have the shapes they have after a call with `B` samples -/
def Net.Fits (B : Nat) (F : Nat → Option (List (List Nat))) : {s s' : List Nat} → {n k p : Nat} → Net s n s' k p → Prop
  | _, _, _, _, _, .seq id c => (∃ L, F id = some L ∧ c.Trail B L) ∧ c.Fits B F
  | _, _, _, _, _, _ => True
def Chain.Fits (B : Nat) (F : Nat → Option (List (List Nat))) : {s s' : List Nat} → {n k p l : Nat} → Chain s n s' k p l → Prop
  | _, _, _, _, _, _, .nil _ _ _ _ => True
  | _, _, _, _, _, _, .snoc c q => c.Fits B F ∧ q.Fits B F
def Chain.Trail (B : Nat) (L : List (List Nat)) : {s s' : List Nat} → {n k p l : Nat} → Chain s n s' k p l → Prop
  | _, _, _, _, _, _, .nil s _ _ _ => L[0]? = some (B :: s)
  | _, _, _, _, _, _, @Chain.snoc _ _ s'' _ _ _ _ _ l c _ => c.Trail B L ∧ L[l + 1]? = some (B :: s'')
end

theorem Chain.Trail.last {B : Nat} {L : List (List Nat)} : {s s' : List Nat} → {n k p l : Nat} → {c : Chain s n s' k p l} → c.Trail B L →
    L[l]? = some (B :: s')
  | _, _, _, _, _, _, .nil _ _ _ _, h => by simpa only [Chain.Trail] using h
  | _, _, _, _, _, _, .snoc _ _, h => by simp only [Chain.Trail] at h; exact h.2

section
variable {α : Type} [Zero α] [One α] [Add α] [Mul α]

theorem vjp_linear_eval {v W : Tensor α} {B i o : Nat} (hv : v.shape = [B, o]) (hW : W.shape = [o, i]) :
    ∃ r, einsum% "bj,jk->bk" [v, W] = .ok r ∧ r.shape = [B, i] ∧
      ∀ (b : Fin B) (k : Fin i), r.data (b * i + k) = sumRange o fun j => v.data (b * o + j) * W.data (j * i + k) := by
  have : Ret (einsum% "bj,jk->bk" [v, W]) fun r => r.shape = [B, i] ∧ ∀ (b : Fin B) (k : Fin i),
      r.get [↑b, ↑k] = sumRange o fun j => v.get [↑b, j] * W.get [j, ↑k] := by
    refine ein_ret (dm [('b', B), ('j', o), ('k', i)]) (by simp [ShapesFit, dm, hv, hW]) (by simp) fun r hs hg => ⟨by simpa [dm] using hs, ?_⟩
    intro b k
    rw [hg _ (by simp [dm])]
    simp [sumLabels, contracted, envGet, prodList, plainProd, dm]
  obtain ⟨r, h1, h2, h3⟩ := this
  refine ⟨r, h1, h2, fun b k => ?_⟩
  have := h3 b k
  simpa only [get2 h2, get2 hv, get2 hW] using this

theorem mul_eval {v d : Tensor α} {B n : Nat} (hv : v.shape = [B, n]) (hd : d.shape = [B, n]) :
    ∃ r, einsum% "bi,bi->bi" [v, d] = .ok r ∧ r.shape = [B, n] ∧
      ∀ (b : Fin B) (k : Fin n), r.data (b * n + k) = v.data (b * n + k) * d.data (b * n + k) := by
  have : Ret (einsum% "bi,bi->bi" [v, d]) fun r => r.shape = [B, n] ∧ ∀ (b : Fin B) (k : Fin n),
      r.get [↑b, ↑k] = v.get [↑b, ↑k] * d.get [↑b, ↑k] := by
    refine ein_ret (dm [('b', B), ('i', n)]) (by simp [ShapesFit, dm, hv, hd]) (by simp) fun r hs hg => ⟨by simpa [dm] using hs, ?_⟩
    intro b k
    rw [hg _ (by simp [dm])]
    simp [sumLabels, contracted, envGet, prodList, plainProd, dm]
  obtain ⟨r, h1, h2, h3⟩ := this
  refine ⟨r, h1, h2, fun b k => ?_⟩
  have := h3 b k
  simpa only [get2 h2, get2 hv, get2 hd] using this

theorem relu_vjp_eval [LT α] [DecidableLT α] {x y v : Tensor α} {B n : Nat} {s : List Nat} (hy : y.shape = B :: s) (hs : size s = n) (hB : 0 < B)
    (hv : v.shape = [B, n]) : ∃ r, (Activation.relu : PureLayer α).vjp x (some y) v .input = .ok (some r) ∧ r.shape = [B, n] ∧
      ∀ (b : Fin B) (k : Fin n), r.data (b * n + k) = v.data (b * n + k) * if 0 < y.data (b * n + k) then 1 else 0 := by
  have e : B * size s / B = n := by rw [hs, Nat.mul_div_cancel_left _ hB]
  have hd : (y.map fun v => if 0 < v then (1 : α) else 0).reshapeInfer [B] [] = .ok ⟨[B, n], (y.map fun v => if 0 < v then (1 : α) else 0).data⟩ := by
    simp only [reshapeInfer, size_cons, size_nil, mul_one, numel, Tensor.map, hy, Nat.mul_mod_right, if_true, Nat.ne_of_gt hB, if_false, e]
    rfl
  obtain ⟨r, h1, h2, h3⟩ := mul_eval hv (d := ⟨[B, n], (y.map fun v => if 0 < v then (1 : α) else 0).data⟩) rfl
  refine ⟨r, ?_, h2, h3⟩
  show (Activation.jacobian _ Activation.reluDiag x (some y) .input true >>= fun d => match d with | none => pure none | some d => some <$> einsum% "bi,bi->bi" [v, d]) = _
  have : Activation.jacobian (fun x => .ok (x.map Activation.reluF)) Activation.reluDiag x (some y) .input true =
      .ok (some ⟨[B, n], (y.map fun v => if 0 < v then (1 : α) else 0).data⟩) := by
    show (y.dim 0 >>= fun b => (Activation.reluDiag x y).reshapeInfer [b] [] >>= _) = _
    rw [show y.dim 0 = .ok B by simp [dim, hy]]
    show ((Activation.reluDiag x y).reshapeInfer [B] [] >>= _) = _
    rw [show Activation.reluDiag x y = y.map fun v => if 0 < v then (1 : α) else 0 from rfl, hd]
    rfl
  rw [this]
  show some <$> einsum% "bi,bi->bi" [v, _] = _
  rw [h1]
  rfl
end

section
set_option linter.unusedSectionVars false
variable {β : Type} [Zero β] [One β] [Add β] [Sub β] [Mul β] [Neg β] [Div β] [NatCast β] [LT β] [DecidableLT β] [Trans β] (R : Rounding β)

/-- row `b` of the exact result with these parameters is row `b` of the result -/
def SimRow (M : Mod ℝ) (ids : List Nat) (sf : Store β) (x y v r : Tensor β) (B n k : Nat) (b : Fin B) (w : Nat → Nat → ℝ) : Prop :=
  ∀ T : Store ℝ, T.fmaps = (sf.image R.val).fmaps → (∀ i ∈ ids, T.param i = ⟨(sf.param i).shape, w i⟩) → ∀ v' : Tensor ℝ, v'.shape = [B, k] →
    (∀ c : Fin k, v'.data (b * k + c) = R.val (v.data (b * k + c))) →
    ∃ r', M.vjp (x.map R.val) (some (y.map R.val)) v' .input T = (.ok (some r'), T) ∧ r'.shape = [B, n] ∧
      ∀ c : Fin n, r'.data (b * n + c) = R.val (r.data (b * n + c))

/-- these parameters are close to those of the state -/
def Close (m : Nat) (sf : Store β) (w : Nat → Nat → ℝ) : Prop :=
  ∀ i j, |w i j - R.val ((sf.param i).data j)| ≤ ((1 + R.u) ^ (m + 1) - 1) * |R.val ((sf.param i).data j)|

theorem Close.refl (m : Nat) (sf : Store β) : Close R m sf fun i j => R.val ((sf.param i).data j) := fun i j => by
  rw [sub_self, abs_zero]
  have : (1 : ℝ) ≤ (1 + R.u) ^ (m + 1) := one_le_pow₀ (by linarith [R.u_nonneg])
  exact mul_nonneg (by linarith) (abs_nonneg _)

def VjpR (m : Nat) (M : Mod β) (M' : Mod ℝ) (ids : List Nat) (sf : Store β) (x y v : Tensor β) (B n k : Nat) : Prop :=
  ∃ r, M.vjp x (some y) v .input sf = (.ok (some r), sf) ∧ r.shape = [B, n] ∧
    ∀ b : Fin B, ∃ w, Close R m sf w ∧ SimRow R M' ids sf x y v r B n k b w

theorem modsIn_length (q : ℝ → β) (fn : (ℝ → ℝ) → β → β) : {s s' : List Nat} → {n k p l : Nat} → (c : Chain s n s' k p l) → (c.modsIn q fn).length = l
  | _, _, _, _, _, _, .nil _ _ _ _ => rfl
  | _, _, _, _, _, _, .snoc c _ => by simp [Chain.modsIn, modsIn_length q fn c]

theorem chain_mods_length : {s s' : List Nat} → {n k p l : Nat} → (c : Chain s n s' k p l) → c.mods.length = l
  | _, _, _, _, _, _, .nil _ _ _ _ => rfl
  | _, _, _, _, _, _, .snoc c _ => by simp [Chain.mods, chain_mods_length c]

theorem fmap_some {α : Type} {s : Store α} {id k : Nat} {L : List (Tensor α)} {t : Tensor α} (h : s.fmaps id = some L) (ht : L[k]? = some t) :
    Sequential.fmap id k s = (.ok t, s) := by
  simp [Sequential.fmap, h, ht]

mutual
theorem Net.vjpR (hone : ∀ a : β, R.val (a * 1) = R.val a) (q : ℝ → β) (fn : (ℝ → ℝ) → β → β) (m : Nat) (sf : Store β) {B : Nat} (hB : 0 < B) :
    {s s' : List Nat} → {n k p : Nat} → (N : Net s n s' k p) → N.ReluSeq m → N.paramIds.Nodup → N.Shapes (sf.image R.val) →
    N.Fits B (fun i => (sf.fmaps i).map (List.map Tensor.shape)) →
    ∀ {x y v : Tensor β}, x.shape = B :: s → y.shape = B :: s' → v.shape = [B, k] → VjpR R m (N.modIn q fn) N.mod N.paramIds sf x y v B n k
  | _, _, _, _, _, .linear id wId bId i o hi ho, hN, hnd, hS, hF, x, y, v, hx, hy, hv => by
    obtain ⟨r, h1, h2, h3⟩ := vjp_linear_eval hv (W := sf.param wId) hS.1
    refine ⟨r, ?_, h2, fun b => ?_⟩
    · show (some <$> einsum% "bj,jk->bk" [v, sf.param wId], sf) = _
      rw [h1]; rfl
    choose θ hθ hs using fun (k : Nat) => R.dot (fun j => v.data (b * o + j)) (fun j => (sf.param wId).data (j * i + k)) o
    refine ⟨fun a j => if a = wId then R.val ((sf.param a).data j) * θ (j % i) (j / i) else R.val ((sf.param a).data j), fun a j => ?_, ?_⟩
    · dsimp only
      split_ifs with ha
      · exact ((hθ _ _).mono R.u_nonneg (Nat.add_le_add_right hN 1)).dist
      · exact Close.refl R m sf a j
    · intro T hT hp v' hv' he
      have hw := hp wId (by simp [Net.paramIds])
      obtain ⟨r', e1, e2, e3⟩ := vjp_linear_eval hv' (W := T.param wId) (by rw [hw]; exact hS.1)
      refine ⟨r', ?_, e2, fun c => ?_⟩
      · show (some <$> einsum% "bj,jk->bk" [v', T.param wId], T) = _
        rw [e1]; rfl
      · rw [e3 b c, h3 b c, hs, sumRange_eq]
        refine Finset.sum_congr rfl fun j _ => ?_
        rw [he j, hw]
        have d1 : (j.val * i + c.val) % i = c := by rw [Nat.mul_comm, Nat.mul_add_mod, Nat.mod_eq_of_lt c.2]
        have d2 : (j.val * i + c.val) / i = j := by rw [Nat.mul_comm, Nat.mul_add_div hi, Nat.div_eq_of_lt c.2, Nat.add_zero]
        simp only [if_true, d1, d2]
        ring
  | _, _, _, _, _, .act a id s n hs hn, hN, hnd, hS, hF, x, y, v, hx, hy, hv => by
    have ha : a = .relu := hN
    subst ha
    obtain ⟨r, h1, h2, h3⟩ := relu_vjp_eval (x := x) hy hs hB hv
    refine ⟨r, ?_, h2, fun b => ⟨_, Close.refl R m sf, ?_⟩⟩
    · show ((Activation.relu : PureLayer β).vjp x (some y) v .input, sf) = _
      rw [h1]
    · intro T hT hp v' hv' he
      obtain ⟨r', e1, e2, e3⟩ := relu_vjp_eval (x := x.map R.val) (y := y.map R.val) hy hs hB hv'
      refine ⟨r', ?_, e2, fun c => ?_⟩
      · show ((Activation.relu : PureLayer ℝ).vjp (x.map R.val) (some (y.map R.val)) v' .input, T) = _
        rw [e1]
      · rw [e3 b c, h3 b c, he c]
        show _ * (if 0 < R.val (y.data (b * n + c)) then (1 : ℝ) else 0) = _
        by_cases h0 : 0 < y.data (b * n + c)
        · rw [if_pos h0, hone, if_pos (by rw [R.lt_iff, R.zero] at h0; exact h0), mul_one]
        · rw [if_neg h0, if_neg (by rw [R.lt_iff, R.zero] at h0; exact h0), mul_zero]
          obtain ⟨δ, -, hd⟩ := R.mul (v.data (b * n + c)) 0
          rw [hd, R.zero]; ring
  | _, _, _, _, _, .flatten id s n hs hn, hN, hnd, hS, hF, x, y, v, hx, hy, hv =>
    ⟨v, rfl, hv, fun b => ⟨_, Close.refl R m sf, fun T hT hp v' hv' he => ⟨v', rfl, hv', he⟩⟩⟩
  | _, _, _, _, _, .reshape id s dims n hs hd hn z hz, hN, hnd, hS, hF, x, y, v, hx, hy, hv =>
    ⟨v, rfl, hv, fun b => ⟨_, Close.refl R m sf, fun T hT hp v' hv' he => ⟨v', rfl, hv', he⟩⟩⟩
  | _, _, _, _, _, .l2norm _ _ _ _ _ _ _, hN, _, _, _, _, _, _, _, _, _ => hN.elim
  | _, _, _, _, _, .conv _ _ _ _, hN, _, _, _, _, _, _, _, _, _ => hN.elim
  | _, _, _, _, _, .upsample _ _ _ _ _ _ _ _ _, hN, _, _, _, _, _, _, _, _, _ => hN.elim
  | _, _, _, _, _, .maxpool _ _, hN, _, _, _, _, _, _, _, _, _ => hN.elim
  | _, _, _, _, _, .skip _ _ _, hN, _, _, _, _, _, _, _, _, _ => hN.elim
  | _, _, _, _, _, .seq id c, hN, hnd, hS, hF, x, y, v, hx, hy, hv => by
    simp only [Net.Fits] at hF
    obtain ⟨⟨L, hL, hT⟩, hF⟩ := hF
    obtain ⟨L', hL', rfl⟩ := Option.map_eq_some_iff.1 hL
    obtain ⟨r, h1, h2, h3⟩ := Chain.vjpR hone q fn m sf hB id [] [] hL' c hN hnd hS hT hF hv
    refine ⟨r, ?_, h2, fun b => ?_⟩
    · simp only [List.append_nil] at h1
      refine Prog.bind_ok (s' := sf) (b := ()) (by simp [Prog.assert]) |>.trans ?_
      refine Prog.bind_ok (s' := sf) (b := y) rfl |>.trans ?_
      refine Prog.bind_ok (s' := sf) (b := r) ?_ |>.trans rfl
      rw [modsIn_length]; exact h1
    · obtain ⟨w, hw, hsim⟩ := h3 b
      refine ⟨w, hw, fun T hT hp v' hv' he => ?_⟩
      obtain ⟨r', e1, e2, e3⟩ := hsim T hT hp v' hv' he
      refine ⟨r', ?_, e2, e3⟩
      simp only [List.append_nil] at e1
      refine Prog.bind_ok (s' := T) (b := ()) (by simp [Prog.assert]) |>.trans ?_
      refine Prog.bind_ok (s' := T) (b := y.map R.val) rfl |>.trans ?_
      refine Prog.bind_ok (s' := T) (b := r') ?_ |>.trans rfl
      rw [chain_mods_length]; exact e1
theorem Chain.vjpR (hone : ∀ a : β, R.val (a * 1) = R.val a) (q : ℝ → β) (fn : (ℝ → ℝ) → β → β) (m : Nat) (sf : Store β) {B : Nat} (hB : 0 < B)
    (id : Nat) (tl : List (Mod β)) (tl' : List (Mod ℝ)) {L : List (Tensor β)} (hL : sf.fmaps id = some L) :
    {s s' : List Nat} → {n k p l : Nat} → (c : Chain s n s' k p l) → c.ReluSeq m → c.paramIds.Nodup → c.Shapes (sf.image R.val) →
    c.Trail B (L.map Tensor.shape) → c.Fits B (fun i => (sf.fmaps i).map (List.map Tensor.shape)) →
    ∀ {v : Tensor β}, v.shape = [B, k] →
    ∃ r, Sequential.vjpInput id (c.modsIn q fn ++ tl) l v sf = (.ok r, sf) ∧ r.shape = [B, n] ∧
      ∀ b : Fin B, ∃ w, Close R m sf w ∧ ∀ T : Store ℝ, T.fmaps = (sf.image R.val).fmaps →
        (∀ i ∈ c.paramIds, T.param i = ⟨(sf.param i).shape, w i⟩) → ∀ v' : Tensor ℝ, v'.shape = [B, k] →
        (∀ j : Fin k, v'.data (b * k + j) = R.val (v.data (b * k + j))) →
        ∃ r', Sequential.vjpInput id (c.mods ++ tl') l v' T = (.ok r', T) ∧ r'.shape = [B, n] ∧
          ∀ j : Fin n, r'.data (b * n + j) = R.val (r.data (b * n + j))
  | _, _, _, _, _, _, .nil s n hs hn, hN, hnd, hS, hT, hF, v, hv =>
    ⟨v, rfl, hv, fun b => ⟨_, Close.refl R m sf, fun T hT hp v' hv' he => ⟨v', rfl, hv', he⟩⟩⟩
  | _, _, _, _, _, _, @Chain.snoc sI sM sO n j k p p' l c N, hN, hnd, hS, hT, hF, v, hv => by
    simp only [Chain.Trail] at hT
    simp only [Chain.Fits] at hF
    obtain ⟨hT1, hT2⟩ := hT
    have hl := hT1.last
    rw [List.getElem?_map, Option.map_eq_some_iff] at hl hT2
    obtain ⟨x, hxL, hx⟩ := hl
    obtain ⟨y, hyL, hy⟩ := hT2
    have hnd' := List.nodup_append.1 (show (c.paramIds ++ N.paramIds).Nodup from hnd)
    obtain ⟨u, a1, a2, a3⟩ := Net.vjpR hone q fn m sf hB N hN.2 hnd'.2.1 hS.2 hF.2 hx hy hv
    obtain ⟨r, b1, b2, b3⟩ := Chain.vjpR hone q fn m sf hB id (N.modIn q fn :: tl) (N.mod :: tl') hL c hN.1 hnd'.1 hS.1 hT1 hF.1 a2
    refine ⟨r, ?_, b2, fun b => ?_⟩
    · simp only [Chain.modsIn, List.append_assoc, List.singleton_append]
      refine Prog.bind_ok (s' := sf) (b := N.modIn q fn) (by simp [Sequential.child, modsIn_length]) |>.trans ?_
      refine Prog.bind_ok (fmap_some hL hxL) |>.trans ?_
      refine Prog.bind_ok (fmap_some hL hyL) |>.trans ?_
      refine Prog.bind_ok a1 |>.trans ?_
      exact Prog.bind_ok (s' := sf) (b := u) rfl |>.trans b1
    · obtain ⟨w1, hw1, hs1⟩ := a3 b
      obtain ⟨w2, hw2, hs2⟩ := b3 b
      refine ⟨fun i j => if i ∈ N.paramIds then w1 i j else w2 i j, fun i j => ?_, fun T hT hp v' hv' he => ?_⟩
      · dsimp only
        split_ifs
        · exact hw1 i j
        · exact hw2 i j
      · have hL' : T.fmaps id = some (L.map (Tensor.map R.val)) := by rw [hT]; simp [Store.image, hL]
        obtain ⟨u', c1, c2, c3⟩ := hs1 T hT (fun i hi => by
          rw [hp i (List.mem_append.2 (.inr hi))]; simp only [hi, if_true]) v' hv' he
        obtain ⟨r', d1, d2, d3⟩ := hs2 T hT (fun i hi => by
          rw [hp i (List.mem_append.2 (.inl hi))]
          have : i ∉ N.paramIds := fun h => hnd'.2.2 i hi i h rfl
          simp only [this, if_false]) u' c2 c3
        refine ⟨r', ?_, d2, d3⟩
        simp only [Chain.mods, List.append_assoc, List.singleton_append]
        refine Prog.bind_ok (s' := T) (b := N.mod) (by simp [Sequential.child, chain_mods_length]) |>.trans ?_
        refine Prog.bind_ok (fmap_some hL' (t := x.map R.val) (by simp [hxL])) |>.trans ?_
        refine Prog.bind_ok (fmap_some hL' (t := y.map R.val) (by simp [hyL])) |>.trans ?_
        refine Prog.bind_ok c1 |>.trans ?_
        exact Prog.bind_ok (s' := T) (b := u') rfl |>.trans d1
end

mutual
theorem Net.fwd_param (q : ℝ → β) (fn : (ℝ → ℝ) → β → β) {m : Nat} : {s s' : List Nat} → {n k p : Nat} → (N : Net s n s' k p) → N.ReluSeq m →
    ∀ {sf sf' : Store β} {x y : Tensor β}, (N.modIn q fn).forward x sf = (.ok y, sf') → sf'.param = sf.param
  | _, _, _, _, _, .linear id wId bId i o hi ho, hN, sf, sf', x, y, h => by injection h with h h2; rw [h2]
  | _, _, _, _, _, .act a id s n hs hn, hN, sf, sf', x, y, h => by injection h with h h2; rw [h2]
  | _, _, _, _, _, .flatten id s n hs hn, hN, sf, sf', x, y, h => by injection h with h h2; rw [h2]
  | _, _, _, _, _, .reshape id s dims n hs hd hn z hz, hN, sf, sf', x, y, h => by injection h with h h2; rw [h2]
  | _, _, _, _, _, .l2norm _ _ _ _ _ _ _, hN, _, _, _, _, _ => hN.elim
  | _, _, _, _, _, .conv _ _ _ _, hN, _, _, _, _, _ => hN.elim
  | _, _, _, _, _, .upsample _ _ _ _ _ _ _ _ _, hN, _, _, _, _, _ => hN.elim
  | _, _, _, _, _, .maxpool _ _, hN, _, _, _, _, _ => hN.elim
  | _, _, _, _, _, .skip _ _ _, hN, _, _, _, _, _ => hN.elim
  | _, _, _, _, _, .seq id c, hN, sf, sf', x, y, h => by
    obtain ⟨_, s1, h1, h2⟩ := NaN.bind_inv (show Sequential.forward id true (c.modsIn q fn) x sf = _ from h)
    injection h1 with _ h1
    exact (Chain.fwd_param q fn c hN h2).trans (congrArg Store.param h1).symm
theorem Chain.fwd_param (q : ℝ → β) (fn : (ℝ → ℝ) → β → β) {m : Nat} : {s s' : List Nat} → {n k p l : Nat} → (c : Chain s n s' k p l) → c.ReluSeq m →
    ∀ {sf sf' : Store β} {x y : Tensor β}, Sequential.run (c.modsIn q fn) x sf = (.ok y, sf') → sf'.param = sf.param
  | _, _, _, _, _, _, .nil s n hs hn, hN, sf, sf', x, y, h => by injection h with h h2; rw [h2]
  | _, _, _, _, _, _, .snoc c N, hN, sf, sf', x, y, h => by
    obtain ⟨v, s1, h1, h2⟩ := run_snoc_inv h
    obtain ⟨s2, h3, h4⟩ := call_inv h2
    exact h4.trans ((Net.fwd_param q fn N hN.2 h3).trans (Chain.fwd_param q fn c hN.1 h1))
end

/-- with `val=None` a method of these networks first calls `forward` -/
theorem Net.vjp_none (q : ℝ → β) (fn : (ℝ → ℝ) → β → β) {m : Nat} {s s' : List Nat} {n k p : Nat} (N : Net s n s' k p) (hN : N.ReluSeq m)
    {sf sf' : Store β} {x y : Tensor β} (h : (N.modIn q fn).forward x sf = (.ok y, sf')) (v : Tensor β) :
    (N.modIn q fn).vjp x none v .input sf = (N.modIn q fn).vjp x (some y) v .input sf' := by
  cases N with
  | linear id wId bId i o hi ho => injection h with h h2; rw [h2]; rfl
  | act a id s n hs hn =>
    have ha : a = .relu := hN
    subst ha
    injection h with h h2
    injection h with h
    rw [h2, ← h]
    rfl
  | flatten id s n hs hn => injection h with h h2; rw [h2]; rfl
  | reshape id s dims n hs hd hn z hz => injection h with h h2; rw [h2]; rfl
  | seq id c =>
    refine (Prog.bind_ok (s' := sf) (b := ()) (by simp [Prog.assert])).trans ?_
    refine Eq.trans ?_ (Prog.bind_ok (s' := sf') (b := ()) (by simp [Prog.assert])).symm
    exact (Prog.bind_ok h).trans rfl
  | _ => exact hN.elim
end

mutual
theorem Net.fits_of_cache {B : Nat} {st : Store ℝ} : {s s' : List Nat} → {n k p : Nat} → (N : Net s n s' k p) → {X : Fin B → Fin n → ℝ} →
    N.mdl.cache B X st → N.Fits B fun i => (st.fmaps i).map (List.map Tensor.shape)
  | _, _, _, _, _, .linear _ _ _ _ _ _ _, _, _ => by simp only [Net.Fits]
  | _, _, _, _, _, .act _ _ _ _ _ _, _, _ => by simp only [Net.Fits]
  | _, _, _, _, _, .flatten _ _ _ _ _, _, _ => by simp only [Net.Fits]
  | _, _, _, _, _, .reshape _ _ _ _ _ _ _ _ _, _, _ => by simp only [Net.Fits]
  | _, _, _, _, _, .l2norm _ _ _ _ _ _ _, _, _ => by simp only [Net.Fits]
  | _, _, _, _, _, .conv _ _ _ _, _, _ => by simp only [Net.Fits]
  | _, _, _, _, _, .upsample _ _ _ _ _ _ _ _ _, _, _ => by simp only [Net.Fits]
  | _, _, _, _, _, .maxpool _ _, _, _ => by simp only [Net.Fits]
  | _, _, _, _, _, .skip _ _ _, _, _ => by simp only [Net.Fits]
  | _, _, _, _, _, .seq id c, X, h => by
    simp only [Net.mdl, seqMdl] at h
    obtain ⟨⟨L, hL, hl⟩, hk⟩ := h
    simp only [Net.Fits]
    exact ⟨⟨L.map Tensor.shape, by rw [hL]; rfl, Chain.trail_of_list c hl⟩, Chain.fits_of_kids c hk⟩
theorem Chain.fits_of_kids {B : Nat} {st : Store ℝ} : {s s' : List Nat} → {n k p l : Nat} → (c : Chain s n s' k p l) → {X : Fin B → Fin n → ℝ} →
    c.mchain.kids B X st → c.Fits B fun i => (st.fmaps i).map (List.map Tensor.shape)
  | _, _, _, _, _, _, .nil _ _ _ _, _, _ => by simp only [Chain.Fits]
  | _, _, _, _, _, _, .snoc c N, X, h => by
    simp only [Chain.mchain, MChain.kids] at h
    simp only [Chain.Fits]
    exact ⟨Chain.fits_of_kids c h.1, Net.fits_of_cache N h.2⟩
theorem Chain.trail_of_list {B : Nat} {L : List (Tensor ℝ)} : {s s' : List Nat} → {n k p l : Nat} → (c : Chain s n s' k p l) → {X : Fin B → Fin n → ℝ} →
    {w : Fin p → ℝ} → MChain.listOk L c.mchain B X w → c.Trail B (L.map Tensor.shape)
  | _, _, _, _, _, _, .nil _ _ _ _, _, _, h => by
    simp only [Chain.mchain, MChain.listOk] at h
    obtain ⟨t, ht, hb⟩ := h
    simp only [Chain.Trail, List.getElem?_map, ht, Option.map_some, hb.1]
  | _, _, _, _, _, _, .snoc c N, _, _, h => by
    simp only [Chain.mchain, MChain.listOk] at h
    obtain ⟨h1, t, ht, hb⟩ := h
    simp only [Chain.Trail, List.getElem?_map, ht, Option.map_some, hb.1]
    exact ⟨Chain.trail_of_list c h1, trivial⟩
end
end NNJ
