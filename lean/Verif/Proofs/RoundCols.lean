import Verif.Proofs.RoundRows
import Verif.Proofs.LooseNet

/-! The columns of jmp are jvps, in any arithmetic. -/

namespace NNJ
open Tensor

section
variable {α : Type} [Zero α] [One α] [Add α] [Mul α]

theorem linear_col {M v W : Tensor α} {B r i o j : Nat} (hj : j < r) (h : IsCol B i r j M v) (hW : W.shape = [o, i]) :
    ∃ G g, einsum% "kj,bji->bki" [W, M] = .ok G ∧ einsum% "kj,bj->bk" [W, v] = .ok g ∧ IsCol B o r j G g := by
  have a : Ret (einsum% "kj,bji->bki" [W, M]) fun G => G.shape = [B, o, r] ∧ ∀ (b : Fin B) (k : Fin o),
      G.get [↑b, ↑k, j] = sumRange i fun l => W.get [↑k, l] * M.get [↑b, l, j] := by
    refine ein_ret (dm [('b', B), ('i', r), ('j', i), ('k', o)]) (by simp [ShapesFit, dm, h.1, hW]) (by simp) fun G hs hg => ⟨by simpa [dm] using hs, ?_⟩
    intro b k
    rw [hg _ (by simp [dm, hj])]
    simp [sumLabels, contracted, envGet, prodList, plainProd, dm]
  have c : Ret (einsum% "kj,bj->bk" [W, v]) fun g => g.shape = [B, o] ∧ ∀ (b : Fin B) (k : Fin o),
      g.get [↑b, ↑k] = sumRange i fun l => W.get [↑k, l] * v.get [↑b, l] := by
    refine ein_ret (dm [('b', B), ('j', i), ('k', o)]) (by simp [ShapesFit, dm, h.2.1, hW]) (by simp) fun g hs hg => ⟨by simpa [dm] using hs, ?_⟩
    intro b k
    rw [hg _ (by simp [dm])]
    simp [sumLabels, contracted, envGet, prodList, plainProd, dm]
  obtain ⟨G, a1, a2, a3⟩ := a
  obtain ⟨g, c1, c2, c3⟩ := c
  refine ⟨G, g, a1, c1, a2, c2, fun b k => ?_⟩
  rw [a3, c3]
  exact sumRange_congr fun l hl => by rw [h.2.2 b ⟨l, hl⟩]

theorem relu_col [LT α] [DecidableLT α] {x y M v : Tensor α} {B r n j : Nat} {s : List Nat} (hj : j < r) (hy : y.shape = B :: s) (hs : size s = n) (hB : 0 < B)
    (h : IsCol B n r j M v) : ∃ G g, (Activation.relu : PureLayer α).jmp x (some y) (some M) .input = .ok (some G) ∧
      (Activation.relu : PureLayer α).jvp x (some y) v .input = .ok (some g) ∧ IsCol B n r j G g := by
  have e : B * size s / B = n := by rw [hs, Nat.mul_div_cancel_left _ hB]
  set d : Tensor α := ⟨[B, n], (y.map fun v => if 0 < v then (1 : α) else 0).data⟩ with hdd
  have hd : (y.map fun v => if 0 < v then (1 : α) else 0).reshapeInfer [B] [] = .ok d := by
    simp only [reshapeInfer, size_cons, size_nil, mul_one, numel, Tensor.map, hy, Nat.mul_mod_right, if_true, Nat.ne_of_gt hB, if_false, e]
    rfl
  have hj' : Activation.jacobian (fun x => .ok (x.map Activation.reluF)) Activation.reluDiag x (some y) .input true = .ok (some d) := by
    show (y.dim 0 >>= fun b => (Activation.reluDiag x y).reshapeInfer [b] [] >>= _) = _
    rw [show y.dim 0 = .ok B by simp [dim, hy]]
    show ((Activation.reluDiag x y).reshapeInfer [B] [] >>= _) = _
    rw [show Activation.reluDiag x y = y.map fun v => if 0 < v then (1 : α) else 0 from rfl, hd]
    rfl
  have a : Ret (einsum [['b', 'i'], ['b', 'i', 'j']] ['b', 'i', 'j'] [d, M]) fun G => G.shape = [B, n, r] ∧
      ∀ (b : Fin B) (k : Fin n), G.get [↑b, ↑k, j] = d.get [↑b, ↑k] * M.get [↑b, ↑k, j] := by
    refine ein_ret (dm [('b', B), ('i', n), ('j', r)]) (by simp [ShapesFit, dm, h.1, hdd]) (by simp) fun G hs hg => ⟨by simpa [dm] using hs, ?_⟩
    intro b k
    rw [hg _ (by simp [dm, hj])]
    simp [sumLabels, contracted, envGet, prodList, plainProd, dm]
  have c : Ret (einsum% "bj,bj->bj" [d, v]) fun g => g.shape = [B, n] ∧
      ∀ (b : Fin B) (k : Fin n), g.get [↑b, ↑k] = d.get [↑b, ↑k] * v.get [↑b, ↑k] := by
    refine ein_ret (dm [('b', B), ('j', n)]) (by simp [ShapesFit, dm, h.2.1, hdd]) (by simp) fun G hs hg => ⟨by simpa [dm] using hs, ?_⟩
    intro b k
    rw [hg _ (by simp [dm])]
    simp [sumLabels, contracted, envGet, prodList, plainProd, dm]
  obtain ⟨G, a1, a2, a3⟩ := a
  obtain ⟨g, c1, c2, c3⟩ := c
  refine ⟨G, g, ?_, ?_, a2, c2, fun b k => ?_⟩
  · show (Activation.jacobian _ Activation.reluDiag x (some y) .input true >>= fun d => match d with | none => pure none | some d => _) = _
    rw [hj']
    show some <$> einsum [['b', 'i'], 'b' :: 'i' :: AbstractDiagonal.ellipsis (M.shape.length - 2)]
      ('b' :: 'i' :: AbstractDiagonal.ellipsis (M.shape.length - 2)) [d, M] = _
    rw [h.1]
    show some <$> einsum [['b', 'i'], ['b', 'i', 'j']] ['b', 'i', 'j'] [d, M] = _
    rw [a1]
    rfl
  · show (Activation.jacobian _ Activation.reluDiag x (some y) .input true >>= fun d => match d with | none => pure none | some d => _) = _
    rw [hj']
    show some <$> einsum% "bj,bj->bj" [d, v] = _
    rw [c1]
    rfl
  · rw [a3, c3, h.2.2]
end

section
set_option linter.unusedSectionVars false
variable {β : Type} [Zero β] [One β] [Add β] [Sub β] [Mul β] [Neg β] [Div β] [NatCast β] [LT β] [DecidableLT β] [Trans β] (f : β → ℝ)

mutual
theorem Net.fwd_shape (q : ℝ → β) (fn : (ℝ → ℝ) → β → β) {m B : Nat} (hB : 0 < B) : {s s' : List Nat} → {n k p : Nat} → (N : Net s n s' k p) → N.ReluSeq m →
    ∀ {sf sf' : Store β} {x y : Tensor β}, N.Shapes (sf.image f) → x.shape = B :: s → (N.modIn q fn).forward x sf = (.ok y, sf') → y.shape = B :: s'
  | _, _, _, _, _, .linear id wId bId i o hi ho, hN, sf, sf', x, y, hS, hx, h => by
    injection h with h h2
    have h : Torch.linear x (sf.param wId) (bId.map sf.param) = .ok y := h
    have hW : (sf.param wId).shape = [o, i] := hS.1
    simp only [Torch.linear, hx, hW, List.getLast?_cons_cons, List.getLast?_singleton, if_true, List.dropLast] at h
    cases hb : bId.map sf.param with
    | none => rw [hb] at h; injection h with h; rw [← h]; rfl
    | some c =>
      rw [hb] at h
      dsimp only at h
      split_ifs at h with hc
      injection h with h; rw [← h]; rfl
  | _, _, _, _, _, .act a id s n hs hn, hN, sf, sf', x, y, hS, hx, h => by
    have ha : a = .relu := hN
    subst ha
    injection h with h h2
    injection h with h
    subst h
    exact hx
  | _, _, _, _, _, .flatten id s n hs hn, hN, sf, sf', x, y, hS, hx, h => by
    injection h with h h2
    obtain ⟨b, h1, h2⟩ := NaN.res_inv h
    obtain ⟨r, hr, hr2⟩ := (leafOk_flatten hs).forward hB (x := x.map f) (X := fun b c => f (x.data (b * n + c))) ⟨hx, fun _ _ => rfl⟩
    have : Resh.flattenForward (x.map f) = .ok (y.map f) := by
      show (x.dim 0 >>= fun b => (x.map f).reshapeInfer [b] []) = _
      rw [h1]
      exact reshapeInfer_map _ h2
    rw [show (Resh.layer (Resh.flattenForward (α := ℝ))).forward (x.map f) = .ok (y.map f) from this] at hr
    injection hr with hr
    subst hr
    exact hr2.1
  | _, _, _, _, _, .reshape id s dims n hs hd hn z hz, hN, sf, sf', x, y, hS, hx, h => by
    injection h with h h2
    obtain ⟨b, h1, h2⟩ := NaN.res_inv h
    obtain ⟨r, hr, hr2⟩ := (leafOk_reshape hs hd hn hz).forward hB (x := x.map f) (X := fun b c => f (x.data (b * n + c))) ⟨hx, fun _ _ => rfl⟩
    have : Resh.reshapeForward z (x.map f) = .ok (y.map f) := by
      show (x.dim 0 >>= fun b => (x.map f).reshapeOpen (b :: z)) = _
      rw [h1]
      exact reshapeOpen_map _ h2
    rw [show (Resh.layer (Resh.reshapeForward (α := ℝ) z)).forward (x.map f) = .ok (y.map f) from this] at hr
    injection hr with hr
    subst hr
    exact hr2.1
  | _, _, _, _, _, .l2norm _ _ _ _ _ _ _, hN, _, _, _, _, _, _, _ => hN.elim
  | _, _, _, _, _, .conv _ _ _ _, hN, _, _, _, _, _, _, _ => hN.elim
  | _, _, _, _, _, .upsample _ _ _ _ _ _ _ _ _, hN, _, _, _, _, _, _, _ => hN.elim
  | _, _, _, _, _, .maxpool _ _, hN, _, _, _, _, _, _, _ => hN.elim
  | _, _, _, _, _, .skip _ _ _, hN, _, _, _, _, _, _, _ => hN.elim
  | _, _, _, _, _, .seq id c, hN, sf, sf', x, y, hS, hx, h => by
    obtain ⟨_, s1, h1, h2⟩ := NaN.bind_inv (show Sequential.forward id true (c.modsIn q fn) x sf = _ from h)
    injection h1 with _ h1
    have hp : s1.param = sf.param := (congrArg Store.param h1).symm
    have hS' : c.Shapes (s1.image f) := c.shapes_of (st := sf.image f) (st' := s1.image f) (fun i => by simp only [Store.image, hp]) hS
    exact Chain.fwd_shape q fn hB c hN hS' hx h2
theorem Chain.fwd_shape (q : ℝ → β) (fn : (ℝ → ℝ) → β → β) {m B : Nat} (hB : 0 < B) : {s s' : List Nat} → {n k p l : Nat} → (c : Chain s n s' k p l) → c.ReluSeq m →
    ∀ {sf sf' : Store β} {x y : Tensor β}, c.Shapes (sf.image f) → x.shape = B :: s → Sequential.run (c.modsIn q fn) x sf = (.ok y, sf') → y.shape = B :: s'
  | _, _, _, _, _, _, .nil s n hs hn, hN, sf, sf', x, y, hS, hx, h => by
    injection h with h h2
    injection h with h
    subst h
    exact hx
  | _, _, _, _, _, _, .snoc c N, hN, sf, sf', x, y, hS, hx, h => by
    obtain ⟨v, s1, h1, h2⟩ := run_snoc_inv h
    obtain ⟨s2, h3, h4⟩ := call_inv h2
    have hp := Chain.fwd_param q fn c hN.1 h1
    have hS' : N.Shapes (s1.image f) := N.shapes_of (st := sf.image f) (st' := s1.image f) (fun i => by simp only [Store.image, hp]) hS.2
    exact Net.fwd_shape q fn hB N hN.2 hS' (Chain.fwd_shape q fn hB c hN.1 hS.1 hx h1) h3
end

/-- the two programs raise the same exception, or return a matrix and one of its columns; the same state is left -/
def ColR (P Q : Prog β (Option (Tensor β))) (sf : Store β) (B k r j : Nat) : Prop :=
  (∃ e s1, P sf = (.error e, s1) ∧ Q sf = (.error e, s1)) ∨
  ∃ G g s1, P sf = (.ok (some G), s1) ∧ Q sf = (.ok (some g), s1) ∧ IsCol B k r j G g ∧ s1.param = sf.param

mutual
theorem Net.colR (q : ℝ → β) (fn : (ℝ → ℝ) → β → β) (m : Nat) {B r j : Nat} (hB : 0 < B) (hj : j < r) :
    {s s' : List Nat} → {n k p : Nat} → (N : Net s n s' k p) → N.ReluSeq m → ∀ {sf : Store β}, N.Shapes (sf.image f) →
    ∀ {x y A v : Tensor β}, x.shape = B :: s → y.shape = B :: s' → IsCol B n r j A v →
      ColR ((N.modIn q fn).jmp x (some y) (some A) .input) ((N.modIn q fn).jvp x (some y) v .input) sf B k r j
  | _, _, _, _, _, .linear id wId bId i o hi ho, hN, sf, hS, x, y, A, v, hx, hy, hv => by
    obtain ⟨G, g, h1, h2, h3⟩ := linear_col hj hv (W := sf.param wId) hS.1
    refine .inr ⟨G, g, sf, ?_, ?_, h3, rfl⟩
    · show (some <$> einsum% "kj,bji->bki" [sf.param wId, A], sf) = _
      rw [h1]; rfl
    · show (some <$> einsum% "kj,bj->bk" [sf.param wId, v], sf) = _
      rw [h2]; rfl
  | _, _, _, _, _, .act a id s n hs hn, hN, sf, hS, x, y, A, v, hx, hy, hv => by
    have ha : a = .relu := hN
    subst ha
    obtain ⟨G, g, h1, h2, h3⟩ := relu_col (x := x) hj hy hs hB hv
    refine .inr ⟨G, g, sf, ?_, ?_, h3, rfl⟩
    · show ((Activation.relu : PureLayer β).jmp x (some y) (some A) .input, sf) = _
      rw [h1]
    · show ((Activation.relu : PureLayer β).jvp x (some y) v .input, sf) = _
      rw [h2]
  | _, _, _, _, _, .flatten id s n hs hn, hN, sf, hS, x, y, A, v, hx, hy, hv => .inr ⟨A, v, sf, rfl, rfl, hv, rfl⟩
  | _, _, _, _, _, .reshape id s dims n hs hd hn z hz, hN, sf, hS, x, y, A, v, hx, hy, hv => .inr ⟨A, v, sf, rfl, rfl, hv, rfl⟩
  | _, _, _, _, _, .l2norm _ _ _ _ _ _ _, hN, _, _, _, _, _, _, _, _, _ => hN.elim
  | _, _, _, _, _, .conv _ _ _ _, hN, _, _, _, _, _, _, _, _, _ => hN.elim
  | _, _, _, _, _, .upsample _ _ _ _ _ _ _ _ _, hN, _, _, _, _, _, _, _, _, _ => hN.elim
  | _, _, _, _, _, .maxpool _ _, hN, _, _, _, _, _, _, _, _, _ => hN.elim
  | _, _, _, _, _, .skip _ _ _, hN, _, _, _, _, _, _, _, _, _ => hN.elim
  | _, _, _, _, _, .seq id c, hN, sf, hS, x, y, A, v, hx, hy, hv => by
    have key := Chain.colR q fn m hB hj [] c hN hS hx hv
    simp only [List.append_nil] at key
    have e1 : ((Net.seq id c).modIn q fn).jmp x (some y) (some A) .input sf = (do let r ← Sequential.jmpInput (c.modsIn q fn) x A; pure (some r)) sf :=
      Prog.bind_ok (s' := sf) (b := ()) (by simp [Prog.assert])
    have e2 : ((Net.seq id c).modIn q fn).jvp x (some y) v .input sf = (do let r ← Sequential.jvpInput (c.modsIn q fn) x v; pure (some r)) sf :=
      Prog.bind_ok (s' := sf) (b := ()) (by simp [Prog.assert])
    rcases key with ⟨e, s1, h1, h2⟩ | ⟨x', A', v', s1, h1, h2, h3, h4, h5⟩
    · refine .inl ⟨e, s1, ?_, ?_⟩
      · rw [e1]; show Prog.bind _ _ sf = _; simp only [Prog.bind, h1]
      · rw [e2]; show Prog.bind _ _ sf = _; simp only [Prog.bind, h2]
    · exact .inr ⟨A', v', s1, e1.trans (Prog.bind_ok h1), e2.trans (Prog.bind_ok h2), h4, h5⟩
theorem Chain.colR (q : ℝ → β) (fn : (ℝ → ℝ) → β → β) (m : Nat) {B r j : Nat} (hB : 0 < B) (hj : j < r) (tl : List (Mod β)) :
    {s s' : List Nat} → {n k p l : Nat} → (c : Chain s n s' k p l) → c.ReluSeq m → ∀ {sf : Store β}, c.Shapes (sf.image f) →
    ∀ {x A v : Tensor β}, x.shape = B :: s → IsCol B n r j A v →
    (∃ e s1, Sequential.jmpInput (c.modsIn q fn ++ tl) x A sf = (.error e, s1) ∧ Sequential.jvpInput (c.modsIn q fn ++ tl) x v sf = (.error e, s1)) ∨
    ∃ x' A' v' s1, Sequential.jmpInput (c.modsIn q fn ++ tl) x A sf = Sequential.jmpInput tl x' A' s1 ∧
      Sequential.jvpInput (c.modsIn q fn ++ tl) x v sf = Sequential.jvpInput tl x' v' s1 ∧ x'.shape = B :: s' ∧ IsCol B k r j A' v' ∧ s1.param = sf.param
  | _, _, _, _, _, _, .nil s n hs hn, hN, sf, hS, x, A, v, hx, hv => .inr ⟨x, A, v, sf, rfl, rfl, hx, hv, rfl⟩
  | _, _, _, _, _, _, .snoc c N, hN, sf, hS, x, A, v, hx, hv => by
    simp only [Chain.modsIn, List.append_assoc, List.singleton_append]
    rcases Chain.colR q fn m hB hj (N.modIn q fn :: tl) c hN.1 hS.1 hx hv with h | ⟨x', A', v', s1, h1, h2, h3, h4, h5⟩
    · exact .inl h
    · rw [h1, h2]
      have hS' : N.Shapes (s1.image f) := N.shapes_of (st := sf.image f) (st' := s1.image f) (fun i => by simp only [Store.image, h5]) hS.2
      cases hc : (N.modIn q fn).call x' s1 with
      | mk a s2 =>
        cases a with
        | error e =>
          refine .inl ⟨e, s2, ?_, ?_⟩
          · show Prog.bind _ _ s1 = _; simp only [Prog.bind, hc]
          · show Prog.bind _ _ s1 = _; simp only [Prog.bind, hc]
        | ok val =>
          obtain ⟨s3, h6, h7⟩ := call_inv hc
          have hp2 : s2.param = s1.param := h7.trans (Net.fwd_param q fn N hN.2 h6)
          have hy := Net.fwd_shape f q fn hB N hN.2 hS' h3 h6
          have hS2 : N.Shapes (s2.image f) := N.shapes_of (st := s1.image f) (st' := s2.image f) (fun i => by simp only [Store.image, hp2]) hS'
          rcases Net.colR q fn m hB hj N hN.2 hS2 h3 hy h4 with ⟨e, s4, a1, a2⟩ | ⟨G, g, s4, a1, a2, a3, a4⟩
          · refine .inl ⟨e, s4, (Prog.bind_ok hc).trans ?_, (Prog.bind_ok hc).trans ?_⟩
            · show Prog.bind _ _ s2 = _; simp only [Prog.bind, a1]
            · show Prog.bind _ _ s2 = _; simp only [Prog.bind, a2]
          · refine .inr ⟨val, G, g, s4, (Prog.bind_ok hc).trans ?_, (Prog.bind_ok hc).trans ?_, hy, a3, a4.trans (hp2.trans h5)⟩
            · exact (Prog.bind_ok a1).trans ((Prog.bind_ok (s' := s4) (b := G) rfl).trans rfl)
            · exact (Prog.bind_ok a2).trans ((Prog.bind_ok (s' := s4) (b := g) rfl).trans rfl)
end
end

mutual
theorem Net.ReluSeq.fwdI {m : Nat} : {s s' : List Nat} → {n k p : Nat} → {N : Net s n s' k p} → N.ReluSeq m → N.FwdI
  | _, _, _, _, _, .linear .., _ => by simp only [Net.FwdI]
  | _, _, _, _, _, .act .., _ => by simp only [Net.FwdI]
  | _, _, _, _, _, .flatten .., _ => by simp only [Net.FwdI]
  | _, _, _, _, _, .reshape .., _ => by simp only [Net.FwdI]
  | _, _, _, _, _, .l2norm .., h => h.elim
  | _, _, _, _, _, .conv .., h => h.elim
  | _, _, _, _, _, .upsample .., h => h.elim
  | _, _, _, _, _, .maxpool .., h => h.elim
  | _, _, _, _, _, .skip .., h => h.elim
  | _, _, _, _, _, .seq _ c, h => by simp only [Net.FwdI]; exact Chain.ReluSeq.fwdI (c := c) h
theorem Chain.ReluSeq.fwdI {m : Nat} : {s s' : List Nat} → {n k p l : Nat} → {c : Chain s n s' k p l} → c.ReluSeq m → c.FwdI
  | _, _, _, _, _, _, .nil .., _ => by simp only [Chain.FwdI]
  | _, _, _, _, _, _, .snoc c N, h => by simp only [Chain.FwdI]; exact ⟨Chain.ReluSeq.fwdI h.1, Net.ReluSeq.fwdI h.2⟩
end

section
variable {β : Type} [Zero β] [One β] [Add β] [Sub β] [Mul β] [Neg β] [Div β] [NatCast β] [LT β] [DecidableLT β] [Trans β]

/-- in forward mode `val=None` makes no difference -/
theorem Net.jmp_val_none (q : ℝ → β) (fn : (ℝ → ℝ) → β → β) {m : Nat} {s s' : List Nat} {n k p : Nat} (N : Net s n s' k p) (hN : N.ReluSeq m)
    {sf sf' : Store β} {x y : Tensor β} (h : (N.modIn q fn).forward x sf = (.ok y, sf')) (A v : Tensor β) :
    (N.modIn q fn).jmp x none (some A) .input sf = (N.modIn q fn).jmp x (some y) (some A) .input sf ∧
    (N.modIn q fn).jvp x none v .input sf = (N.modIn q fn).jvp x (some y) v .input sf := by
  cases N with
  | act a id s n hs hn =>
    have ha : a = .relu := hN
    subst ha
    injection h with h h2
    injection h with h
    rw [← h]
    exact ⟨rfl, rfl⟩
  | linear => exact ⟨rfl, rfl⟩
  | flatten => exact ⟨rfl, rfl⟩
  | reshape => exact ⟨rfl, rfl⟩
  | seq => exact ⟨rfl, rfl⟩
  | _ => exact hN.elim
end
end NNJ
