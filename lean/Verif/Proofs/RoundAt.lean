import Verif.Proofs.RoundCols
import Verif.Spec.RoundAt

/-! What is computed for a sample depends on that sample alone, in any arithmetic. -/

namespace NNJ
open Tensor

section
set_option linter.unusedSectionVars false
variable {β : Type} [Zero β] [One β] [Add β] [Sub β] [Mul β] [Neg β] [Div β] [NatCast β] [LT β] [DecidableLT β] [Trans β] (f : β → ℝ)

theorem torchLinear_at {x x' y y' W : Tensor β} {bias : Option (Tensor β)} {B B' i o b b' : Nat} (hx : x.shape = [B, i]) (hx' : x'.shape = [B', i])
    (hW : W.shape = [o, i]) (h : SampleEq b b' i x x') (hy : Torch.linear x W bias = .ok y) (hy' : Torch.linear x' W bias = .ok y') : SampleEq b b' o y y' := by
  intro c hc
  have ho : 0 < o := by omega
  have e1 : ∀ a, (a * o + c) / o = a := fun a => by rw [Nat.add_comm, Nat.add_mul_div_right _ _ ho, Nat.div_eq_of_lt hc, Nat.zero_add]
  have e2 : ∀ a, (a * o + c) % o = c := fun a => by rw [Nat.add_comm, Nat.add_mul_mod_self_right, Nat.mod_eq_of_lt hc]
  have hs : ∀ d : Nat, (sumRange i fun j => x.data (b * i + j) * W.data (d * i + j)) = sumRange i fun j => x'.data (b' * i + j) * W.data (d * i + j) :=
    fun d => sumRange_congr fun l hl => by rw [h l hl]
  simp only [Torch.linear, hx, hW, List.getLast?_cons_cons, List.getLast?_singleton, if_true] at hy
  simp only [Torch.linear, hx', hW, List.getLast?_cons_cons, List.getLast?_singleton, if_true] at hy'
  cases bias with
  | none =>
    injection hy with hy
    injection hy' with hy'
    subst hy hy'
    simp only [e1, e2]
    exact hs c
  | some d =>
    dsimp only at hy hy'
    split_ifs at hy with hd
    rw [if_pos hd] at hy'
    injection hy with hy
    injection hy' with hy'
    subst hy hy'
    simp only [e1, e2]
    rw [hs c]

theorem reshapeInfer_eq {x y : Tensor β} {a c : List Nat} (h : x.reshapeInfer a c = .ok y) : y.data = x.data := by
  simp only [reshapeInfer] at h
  split_ifs at h
  injection h with h
  rw [← h]

theorem reshapeOpen_eq {x y : Tensor β} {a : List Int} (h : x.reshapeOpen a = .ok y) : y.data = x.data := by
  simp only [reshapeOpen] at h
  split at h
  all_goals first
    | (split_ifs at h <;> first | exact reshapeInfer_eq h | (simp only [reshape] at h; split_ifs at h; injection h with h; rw [← h]))
    | exact reshapeInfer_eq h
    | (simp only [reshape] at h; split_ifs at h; injection h with h; rw [← h])

mutual
theorem Net.fwdAt (q : ℝ → β) (fn : (ℝ → ℝ) → β → β) {m B B' b b' : Nat} (hB : 0 < B) (hB' : 0 < B') : {s s' : List Nat} → {n k p : Nat} → (N : Net s n s' k p) →
    N.ReluSeq m → ∀ {sf sg sf' sg' : Store β} {x x' y y' : Tensor β}, sg.param = sf.param → N.Shapes (sf.image f) → x.shape = B :: s → x'.shape = B' :: s →
    SampleEq b b' n x x' → (N.modIn q fn).forward x sf = (.ok y, sf') → (N.modIn q fn).forward x' sg = (.ok y', sg') → SampleEq b b' k y y'
  | _, _, _, _, _, .linear id wId bId i o hi ho, hN, sf, sg, sf', sg', x, x', y, y', hp, hS, hx, hx', he, h, h' => by
    injection h with h _
    injection h' with h' _
    have h1 : Torch.linear x (sf.param wId) (bId.map sf.param) = .ok y := h
    have h2 : Torch.linear x' (sg.param wId) (bId.map sg.param) = .ok y' := h'
    rw [hp] at h2
    exact torchLinear_at hx hx' hS.1 he h1 h2
  | _, _, _, _, _, .act a id s n hs hn, hN, sf, sg, sf', sg', x, x', y, y', hp, hS, hx, hx', he, h, h' => by
    have ha : a = .relu := hN
    subst ha
    injection h with h _
    injection h with h
    injection h' with h' _
    injection h' with h'
    subst h h'
    exact fun c hc => congrArg Activation.reluF (he c hc)
  | _, _, _, _, _, .flatten id s n hs hn, hN, sf, sg, sf', sg', x, x', y, y', hp, hS, hx, hx', he, h, h' => by
    injection h with h _
    injection h' with h' _
    obtain ⟨_, _, h2⟩ := NaN.res_inv h
    obtain ⟨_, _, h2'⟩ := NaN.res_inv h'
    intro c hc
    rw [reshapeInfer_eq h2, reshapeInfer_eq h2']
    exact he c hc
  | _, _, _, _, _, .reshape id s dims n hs hd hn z hz, hN, sf, sg, sf', sg', x, x', y, y', hp, hS, hx, hx', he, h, h' => by
    injection h with h _
    injection h' with h' _
    obtain ⟨_, _, h2⟩ := NaN.res_inv h
    obtain ⟨_, _, h2'⟩ := NaN.res_inv h'
    intro c hc
    rw [reshapeOpen_eq h2, reshapeOpen_eq h2']
    exact he c hc
  | _, _, _, _, _, .l2norm _ _ _ _ _ _ _, hN, _, _, _, _, _, _, _, _, _, _, _, _, _, _, _ => hN.elim
  | _, _, _, _, _, .conv _ _ _ _, hN, _, _, _, _, _, _, _, _, _, _, _, _, _, _, _ => hN.elim
  | _, _, _, _, _, .upsample _ _ _ _ _ _ _ _ _, hN, _, _, _, _, _, _, _, _, _, _, _, _, _, _, _ => hN.elim
  | _, _, _, _, _, .maxpool _ _, hN, _, _, _, _, _, _, _, _, _, _, _, _, _, _, _ => hN.elim
  | _, _, _, _, _, .skip _ _ _, hN, _, _, _, _, _, _, _, _, _, _, _, _, _, _, _ => hN.elim
  | _, _, _, _, _, .seq id c, hN, sf, sg, sf', sg', x, x', y, y', hp, hS, hx, hx', he, h, h' => by
    obtain ⟨_, s1, h1, h2⟩ := NaN.bind_inv (show Sequential.forward id true (c.modsIn q fn) x sf = _ from h)
    obtain ⟨_, t1, h1', h2'⟩ := NaN.bind_inv (show Sequential.forward id true (c.modsIn q fn) x' sg = _ from h')
    injection h1 with _ h1
    injection h1' with _ h1'
    have e : s1.param = sf.param := (congrArg Store.param h1).symm
    have e' : t1.param = sg.param := (congrArg Store.param h1').symm
    have hS' : c.Shapes (s1.image f) := c.shapes_of (st := sf.image f) (st' := s1.image f) (fun i => by simp only [Store.image, e]) hS
    exact Chain.fwdAt q fn hB hB' c hN (e'.trans (hp.trans e.symm)) hS' hx hx' he h2 h2'
theorem Chain.fwdAt (q : ℝ → β) (fn : (ℝ → ℝ) → β → β) {m B B' b b' : Nat} (hB : 0 < B) (hB' : 0 < B') : {s s' : List Nat} → {n k p l : Nat} →
    (c : Chain s n s' k p l) → c.ReluSeq m → ∀ {sf sg sf' sg' : Store β} {x x' y y' : Tensor β}, sg.param = sf.param → c.Shapes (sf.image f) → x.shape = B :: s →
    x'.shape = B' :: s → SampleEq b b' n x x' → Sequential.run (c.modsIn q fn) x sf = (.ok y, sf') → Sequential.run (c.modsIn q fn) x' sg = (.ok y', sg') →
    SampleEq b b' k y y'
  | _, _, _, _, _, _, .nil s n hs hn, hN, sf, sg, sf', sg', x, x', y, y', hp, hS, hx, hx', he, h, h' => by
    injection h with h _
    injection h with h
    injection h' with h' _
    injection h' with h'
    subst h h'
    exact he
  | _, _, _, _, _, _, .snoc c N, hN, sf, sg, sf', sg', x, x', y, y', hp, hS, hx, hx', he, h, h' => by
    obtain ⟨v, s1, h1, h2⟩ := run_snoc_inv h
    obtain ⟨v', t1, h1', h2'⟩ := run_snoc_inv h'
    obtain ⟨s2, h3, h4⟩ := call_inv h2
    obtain ⟨t2, h3', h4'⟩ := call_inv h2'
    have e := Chain.fwd_param q fn c hN.1 h1
    have e' := Chain.fwd_param q fn c hN.1 h1'
    have hS' : N.Shapes (s1.image f) := N.shapes_of (st := sf.image f) (st' := s1.image f) (fun i => by simp only [Store.image, e]) hS.2
    have hg : c.Shapes (sg.image f) := c.shapes_of (st := sf.image f) (st' := sg.image f) (fun i => by simp only [Store.image, hp]) hS.1
    exact Net.fwdAt q fn hB hB' N hN.2 (e'.trans (hp.trans e.symm)) hS' (Chain.fwd_shape f q fn hB c hN.1 hS.1 hx h1) (Chain.fwd_shape f q fn hB' c hN.1 hg hx' h1')
      (Chain.fwdAt q fn hB hB' c hN.1 hp hS.1 hx hx' he h1 h1') h3 h3'
end

theorem linear_jvp_at {v v' W g g' : Tensor β} {B B' i o b b' : Nat} (hb : b < B) (hb' : b' < B') (hv : v.shape = [B, i]) (hv' : v'.shape = [B', i])
    (hW : W.shape = [o, i]) (h : SampleEq b b' i v v') (hg : einsum% "kj,bj->bk" [W, v] = .ok g) (hg' : einsum% "kj,bj->bk" [W, v'] = .ok g') :
    g.shape = [B, o] ∧ g'.shape = [B', o] ∧ SampleEq b b' o g g' := by
  have c : ∀ {u : Tensor β} {A : Nat}, u.shape = [A, i] → Ret (einsum% "kj,bj->bk" [W, u]) fun g => g.shape = [A, o] ∧ ∀ (b : Fin A) (k : Fin o),
      g.get [↑b, ↑k] = sumRange i fun l => W.get [↑k, l] * u.get [↑b, l] := by
    intro u A hu
    refine ein_ret (dm [('b', A), ('j', i), ('k', o)]) (by simp [ShapesFit, dm, hu, hW]) (by simp) fun g hs hg => ⟨by simpa [dm] using hs, ?_⟩
    intro b k
    rw [hg _ (by simp [dm])]
    simp [sumLabels, contracted, envGet, prodList, plainProd, dm]
  obtain ⟨G, a1, a2, a3⟩ := c hv
  obtain ⟨G', b1, b2, b3⟩ := c hv'
  rw [hg] at a1
  rw [hg'] at b1
  injection a1 with a1
  injection b1 with b1
  subst a1 b1
  refine ⟨a2, b2, fun k hk => ?_⟩
  have r1 := a3 ⟨b, hb⟩ ⟨k, hk⟩
  have r2 := b3 ⟨b', hb'⟩ ⟨k, hk⟩
  rw [get2 a2] at r1
  rw [get2 b2] at r2
  rw [r1, r2]
  refine sumRange_congr fun l hl => ?_
  rw [get2 hv, get2 hv', h l hl]

theorem relu_jvp_at {x x' y y' v v' g g' : Tensor β} {B B' n b b' : Nat} {s : List Nat} (hB : 0 < B) (hB' : 0 < B') (hb : b < B) (hb' : b' < B') (hs : size s = n)
    (hy : y.shape = B :: s) (hy' : y'.shape = B' :: s) (hv : v.shape = [B, n]) (hv' : v'.shape = [B', n]) (hey : SampleEq b b' n y y') (h : SampleEq b b' n v v')
    (hg : (Activation.relu : PureLayer β).jvp x (some y) v .input = .ok (some g)) (hg' : (Activation.relu : PureLayer β).jvp x' (some y') v' .input = .ok (some g')) :
    g.shape = [B, n] ∧ g'.shape = [B', n] ∧ SampleEq b b' n g g' := by
  have key : ∀ {x y v : Tensor β} {A : Nat}, 0 < A → y.shape = A :: s → v.shape = [A, n] → ∃ g, (Activation.relu : PureLayer β).jvp x (some y) v .input = .ok (some g) ∧
      g.shape = [A, n] ∧ ∀ (b : Fin A) (k : Fin n), g.data (b * n + k) = (if 0 < y.data (b * n + k) then (1 : β) else 0) * v.data (b * n + k) := by
    intro x y v A hA hy hv
    have e : A * size s / A = n := by rw [hs, Nat.mul_div_cancel_left _ hA]
    set d : Tensor β := ⟨[A, n], (y.map fun v => if 0 < v then (1 : β) else 0).data⟩ with hdd
    have hd : (y.map fun v => if 0 < v then (1 : β) else 0).reshapeInfer [A] [] = .ok d := by
      simp only [reshapeInfer, size_cons, size_nil, mul_one, numel, Tensor.map, hy, Nat.mul_mod_right, if_true, Nat.ne_of_gt hA, if_false, e]
      rfl
    have hj' : Activation.jacobian (fun x => .ok (x.map Activation.reluF)) Activation.reluDiag x (some y) .input true = .ok (some d) := by
      show (y.dim 0 >>= fun b => (Activation.reluDiag x y).reshapeInfer [b] [] >>= _) = _
      rw [show y.dim 0 = .ok A by simp [dim, hy]]
      show ((Activation.reluDiag x y).reshapeInfer [A] [] >>= _) = _
      rw [show Activation.reluDiag x y = y.map fun v => if 0 < v then (1 : β) else 0 from rfl, hd]
      rfl
    have c : Ret (einsum% "bj,bj->bj" [d, v]) fun g => g.shape = [A, n] ∧
        ∀ (b : Fin A) (k : Fin n), g.get [↑b, ↑k] = d.get [↑b, ↑k] * v.get [↑b, ↑k] := by
      refine ein_ret (dm [('b', A), ('j', n)]) (by simp [ShapesFit, dm, hv, hdd]) (by simp) fun G hs hg => ⟨by simpa [dm] using hs, ?_⟩
      intro b k
      rw [hg _ (by simp [dm])]
      simp [sumLabels, contracted, envGet, prodList, plainProd, dm]
    obtain ⟨g, c1, c2, c3⟩ := c
    refine ⟨g, ?_, c2, fun b k => ?_⟩
    · show (Activation.jacobian _ Activation.reluDiag x (some y) .input true >>= fun d => match d with | none => pure none | some d => _) = _
      rw [hj']
      show some <$> einsum% "bj,bj->bj" [d, v] = _
      rw [c1]
      rfl
    · have := c3 b k
      rw [get2 c2, get2 hv, get2 rfl] at this
      exact this
  obtain ⟨G, a1, a2, a3⟩ := key (x := x) hB hy hv
  obtain ⟨G', b1, b2, b3⟩ := key (x := x') hB' hy' hv'
  rw [hg] at a1
  rw [hg'] at b1
  injection a1 with a1
  injection b1 with b1
  injection a1 with a1
  injection b1 with b1
  subst a1 b1
  refine ⟨a2, b2, fun k hk => ?_⟩
  rw [a3 ⟨b, hb⟩ ⟨k, hk⟩, b3 ⟨b', hb'⟩ ⟨k, hk⟩]
  show (if 0 < y.data (b * n + k) then (1 : β) else 0) * v.data (b * n + k) = (if 0 < y'.data (b' * n + k) then (1 : β) else 0) * v'.data (b' * n + k)
  rw [hey k hk, h k hk]

theorem need_inv {o : Option (Tensor β)} {t : Tensor β} {s s' : Store β} (h : Prog.need o s = (.ok t, s')) : o = some t ∧ s' = s := by
  cases o with
  | none => injection h with h; cases h
  | some a =>
    injection h with h h2
    injection h with h
    subst h h2
    exact ⟨rfl, rfl⟩

mutual
theorem Net.jvpAt (q : ℝ → β) (fn : (ℝ → ℝ) → β → β) {m B B' b b' : Nat} (hb : b < B) (hb' : b' < B') : {s s' : List Nat} → {n k p : Nat} → (N : Net s n s' k p) →
    N.ReluSeq m → ∀ {sf sg sf' sg' : Store β} {x x' y y' v v' g g' : Tensor β}, sg.param = sf.param → N.Shapes (sf.image f) → x.shape = B :: s → x'.shape = B' :: s →
    y.shape = B :: s' → y'.shape = B' :: s' → v.shape = [B, n] → v'.shape = [B', n] → SampleEq b b' n x x' → SampleEq b b' k y y' → SampleEq b b' n v v' →
    (N.modIn q fn).jvp x (some y) v .input sf = (.ok (some g), sf') → (N.modIn q fn).jvp x' (some y') v' .input sg = (.ok (some g'), sg') →
    g.shape = [B, k] ∧ g'.shape = [B', k] ∧ SampleEq b b' k g g' ∧ sf'.param = sf.param ∧ sg'.param = sg.param
  | _, _, _, _, _, .linear id wId bId i o hi ho, hN, sf, sg, sf', sg', x, x', y, y', v, v', g, g', hp, hS, hx, hx', hy, hy', hv, hv', ex, ey, ev, h, h' => by
    injection h with h h2
    injection h' with h' h2'
    obtain ⟨G, h3, h4⟩ := NaN.map_inv (show some <$> einsum% "kj,bj->bk" [sf.param wId, v] = .ok (some g) from h)
    obtain ⟨G', h3', h4'⟩ := NaN.map_inv (show some <$> einsum% "kj,bj->bk" [sg.param wId, v'] = .ok (some g') from h')
    injection h4 with h4
    injection h4' with h4'
    subst h4 h4'
    rw [hp] at h3'
    obtain ⟨a1, a2, a3⟩ := linear_jvp_at hb hb' hv hv' hS.1 ev h3 h3'
    exact ⟨a1, a2, a3, by rw [h2], by rw [h2']⟩
  | _, _, _, _, _, .act a id s n hs hn, hN, sf, sg, sf', sg', x, x', y, y', v, v', g, g', hp, hS, hx, hx', hy, hy', hv, hv', ex, ey, ev, h, h' => by
    have ha : a = .relu := hN
    subst ha
    injection h with h h2
    injection h' with h' h2'
    obtain ⟨a1, a2, a3⟩ := relu_jvp_at (x := x) (x' := x') (by omega) (by omega) hb hb' hs hy hy' hv hv' ey ev h h'
    exact ⟨a1, a2, a3, by rw [h2], by rw [h2']⟩
  | _, _, _, _, _, .flatten id s n hs hn, hN, sf, sg, sf', sg', x, x', y, y', v, v', g, g', hp, hS, hx, hx', hy, hy', hv, hv', ex, ey, ev, h, h' => by
    injection h with h h2
    injection h' with h' h2'
    injection h with h
    injection h' with h'
    injection h with h
    injection h' with h'
    subst h h'
    exact ⟨hv, hv', ev, by rw [h2], by rw [h2']⟩
  | _, _, _, _, _, .reshape id s dims n hs hd hn z hz, hN, sf, sg, sf', sg', x, x', y, y', v, v', g, g', hp, hS, hx, hx', hy, hy', hv, hv', ex, ey, ev, h, h' => by
    injection h with h h2
    injection h' with h' h2'
    injection h with h
    injection h' with h'
    injection h with h
    injection h' with h'
    subst h h'
    exact ⟨hv, hv', ev, by rw [h2], by rw [h2']⟩
  | _, _, _, _, _, .l2norm .., hN, _, _, _, _, _, _, _, _, _, _, _, _, _, _, _, _, _, _, _, _, _, _, _, _, _ => hN.elim
  | _, _, _, _, _, .conv .., hN, _, _, _, _, _, _, _, _, _, _, _, _, _, _, _, _, _, _, _, _, _, _, _, _, _ => hN.elim
  | _, _, _, _, _, .upsample .., hN, _, _, _, _, _, _, _, _, _, _, _, _, _, _, _, _, _, _, _, _, _, _, _, _, _ => hN.elim
  | _, _, _, _, _, .maxpool .., hN, _, _, _, _, _, _, _, _, _, _, _, _, _, _, _, _, _, _, _, _, _, _, _, _, _ => hN.elim
  | _, _, _, _, _, .skip .., hN, _, _, _, _, _, _, _, _, _, _, _, _, _, _, _, _, _, _, _, _, _, _, _, _, _ => hN.elim
  | _, _, _, _, _, .seq id c, hN, sf, sg, sf', sg', x, x', y, y', v, v', g, g', hp, hS, hx, hx', hy, hy', hv, hv', ex, ey, ev, h, h' => by
    have e : ∀ (x y v : Tensor β) (s : Store β), ((Net.seq id c).modIn q fn).jvp x (some y) v .input s = (do let r ← Sequential.jvpInput (c.modsIn q fn) x v; pure (some r)) s :=
      fun x y v s => Prog.bind_ok (s' := s) (b := ()) (by simp [Prog.assert])
    rw [e] at h h'
    obtain ⟨r, s1, h1, h2⟩ := NaN.bind_inv h
    obtain ⟨r', t1, h1', h2'⟩ := NaN.bind_inv h'
    injection h2 with h2 h3
    injection h2 with h2
    injection h2 with h2
    injection h2' with h2' h3'
    injection h2' with h2'
    injection h2' with h2'
    subst h2 h2' h3 h3'
    have key := Chain.jvpAt q fn hb hb' [] c hN hp hS hx hx' hv hv' ex ev (by rw [List.append_nil]; exact h1) (by rw [List.append_nil]; exact h1')
    obtain ⟨xm, xm', vm, vm', sm, sm', a1, a2, -, -, a3, a4, -, a5, a6, a7⟩ := key
    injection a1 with a1 a1'
    injection a1 with a1
    injection a2 with a2 a2'
    injection a2 with a2
    subst a1 a2 a1' a2'
    exact ⟨a3, a4, a5, a6, a7⟩
theorem Chain.jvpAt (q : ℝ → β) (fn : (ℝ → ℝ) → β → β) {m B B' b b' : Nat} (hb : b < B) (hb' : b' < B') (tl : List (Mod β)) : {s s' : List Nat} → {n k p l : Nat} →
    (c : Chain s n s' k p l) → c.ReluSeq m → ∀ {sf sg sf' sg' : Store β} {x x' v v' g g' : Tensor β}, sg.param = sf.param → c.Shapes (sf.image f) → x.shape = B :: s →
    x'.shape = B' :: s → v.shape = [B, n] → v'.shape = [B', n] → SampleEq b b' n x x' → SampleEq b b' n v v' →
    Sequential.jvpInput (c.modsIn q fn ++ tl) x v sf = (.ok g, sf') → Sequential.jvpInput (c.modsIn q fn ++ tl) x' v' sg = (.ok g', sg') →
    ∃ xm xm' vm vm' sm sm', Sequential.jvpInput tl xm vm sm = (.ok g, sf') ∧ Sequential.jvpInput tl xm' vm' sm' = (.ok g', sg') ∧ xm.shape = B :: s' ∧ xm'.shape = B' :: s' ∧
      vm.shape = [B, k] ∧ vm'.shape = [B', k] ∧ SampleEq b b' k xm xm' ∧ SampleEq b b' k vm vm' ∧ sm.param = sf.param ∧ sm'.param = sg.param
  | _, _, _, _, _, _, .nil s n hs hn, hN, sf, sg, sf', sg', x, x', v, v', g, g', hp, hS, hx, hx', hv, hv', ex, ev, h, h' =>
    ⟨x, x', v, v', sf, sg, h, h', hx, hx', hv, hv', ex, ev, rfl, rfl⟩
  | _, _, _, _, _, _, .snoc c N, hN, sf, sg, sf', sg', x, x', v, v', g, g', hp, hS, hx, hx', hv, hv', ex, ev, h, h' => by
    simp only [Chain.modsIn, List.append_assoc, List.singleton_append] at h h'
    obtain ⟨xm, xm', vm, vm', sm, sm', a1, a2, a3, a4, a5, a6, a7, a8, a9, a10⟩ := Chain.jvpAt q fn hb hb' (N.modIn q fn :: tl) c hN.1 hp hS.1 hx hx' hv hv' ex ev h h'
    obtain ⟨y, s1, h1, h2⟩ := NaN.bind_inv (p := (N.modIn q fn).call xm) a1
    obtain ⟨y', t1, h1', h2'⟩ := NaN.bind_inv (p := (N.modIn q fn).call xm') a2
    obtain ⟨o, s2, h3, h4⟩ := NaN.bind_inv h2
    obtain ⟨o', t2, h3', h4'⟩ := NaN.bind_inv h2'
    obtain ⟨w, s3, h5, h6⟩ := NaN.bind_inv h4
    obtain ⟨w', t3, h5', h6'⟩ := NaN.bind_inv h4'
    obtain ⟨rfl, rfl⟩ := need_inv h5
    obtain ⟨rfl, rfl⟩ := need_inv h5'
    obtain ⟨s4, h7, h8⟩ := call_inv h1
    obtain ⟨t4, h7', h8'⟩ := call_inv h1'
    have e := h8.trans (Net.fwd_param q fn N hN.2 h7)
    have e' := h8'.trans (Net.fwd_param q fn N hN.2 h7')
    have hpm : sm'.param = sm.param := a10.trans (hp.trans a9.symm)
    have hSm : N.Shapes (sm.image f) := N.shapes_of (st := sf.image f) (st' := sm.image f) (fun i => by simp only [Store.image, a9]) hS.2
    have hSm' : N.Shapes (sm'.image f) := N.shapes_of (st := sm.image f) (st' := sm'.image f) (fun i => by simp only [Store.image, hpm]) hSm
    have hS1 : N.Shapes (s1.image f) := N.shapes_of (st := sm.image f) (st' := s1.image f) (fun i => by simp only [Store.image, e]) hSm
    have hy := Net.fwd_shape f q fn (by omega) N hN.2 hSm a3 h7
    have hy' := Net.fwd_shape f q fn (by omega) N hN.2 hSm' a4 h7'
    have ey := Net.fwdAt f q fn (by omega) (by omega) N hN.2 hpm hSm a3 a4 a7 h7 h7'
    obtain ⟨c1, c2, c3, c4, c5⟩ := Net.jvpAt q fn hb hb' N hN.2 (e'.trans (hpm.trans e.symm)) hS1 a3 a4 hy hy' a5 a6 a7 ey a8 h3 h3'
    exact ⟨y, y', w, w', _, _, h6, h6', hy, hy', c1, c2, ey, c3, c4.trans (e.trans a9), c5.trans (e'.trans a10)⟩
end
end
end NNJ
