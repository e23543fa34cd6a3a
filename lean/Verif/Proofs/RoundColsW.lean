import Verif.Proofs.RoundCols

/-! The columns of jmp wrt the weights are jvps, in any arithmetic. -/

namespace NNJ
open Tensor

section
variable {α : Type} [Zero α] [One α] [Add α] [Mul α]

theorem IsCol.slice {B K r j lo q : Nat} {M v : Tensor α} (hj : j < r) (h : IsCol B K r j M v) (hq : lo + q ≤ K) :
    ∃ G g, M.slice 1 lo (lo + q) = .ok G ∧ v.slice 1 lo (lo + q) = .ok g ∧ IsCol B q r j G g := by
  have e1 : min lo K = lo := by omega
  have e2 : min (lo + q) K = lo + q := by omega
  have e3 : lo + q - lo = q := by omega
  refine ⟨ofFn [B, q, r] fun idx => M.get (idx.set 1 (idx.getD 1 0 + lo)), ofFn [B, q] fun idx => v.get (idx.set 1 (idx.getD 1 0 + lo)), ?_, ?_, rfl, rfl, fun b c => ?_⟩
  · simp only [Tensor.slice, h.1, List.getElem?_cons_succ, List.getElem?_cons_zero, e1, e2, e3, List.set]
  · simp only [Tensor.slice, h.2.1, List.getElem?_cons_succ, List.getElem?_cons_zero, e1, e2, e3, List.set]
  · rw [get_ofFn _ (by simp [hj]), get_ofFn _ (by simp)]
    simp only [List.set, List.getD_cons_succ, List.getD_cons_zero]
    exact h.2.2 b ⟨c + lo, by omega⟩

theorem IsCol.add {B K r j : Nat} {M v N w : Tensor α} (h : IsCol B K r j M v) (h' : IsCol B K r j N w) :
    ∃ G g, M.add N = .ok G ∧ v.add w = .ok g ∧ IsCol B K r j G g := by
  refine ⟨⟨[B, K, r], fun k => M.data k + N.data k⟩, ⟨[B, K], fun k => v.data k + w.data k⟩, ?_, ?_, rfl, rfl, fun b c => ?_⟩
  · simp only [Tensor.add, zipWithB, h.1, h'.1, if_true]
  · simp only [Tensor.add, zipWithB, h.2.1, h'.2.1, if_true]
  · have a := h.2.2 b c
    have a' := h'.2.2 b c
    rw [get3 h.1, get2 h.2.1] at a
    rw [get3 h'.1, get2 h'.2.1] at a'
    rw [get3 rfl, get2 rfl]
    show M.data _ + N.data _ = v.data _ + w.data _
    rw [a, a']

theorem IsCol.addInPlace {B K r j : Nat} {M v N w : Tensor α} (h : IsCol B K r j M v) (h' : IsCol B K r j N w) :
    ∃ G g, M.addInPlace N = .ok G ∧ v.addInPlace w = .ok g ∧ IsCol B K r j G g := by
  obtain ⟨G, g, h1, h2, h3⟩ := h.add h'
  refine ⟨G, g, ?_, ?_, h3⟩
  · show (M.add N >>= _) = _
    rw [h1]
    show (if G.shape = M.shape then _ else _) = _
    rw [h3.1, h.1, if_pos rfl]
  · show (v.add w >>= _) = _
    rw [h2]
    show (if g.shape = v.shape then _ else _) = _
    rw [h3.2.1, h.2.1, if_pos rfl]

theorem outer_col {M v x : Tensor α} {B r i o j : Nat} (hj : j < r) (hB : 0 < B) (hi : 0 < i) (ho : 0 < o) (h : IsCol B (o * i) r j M v) (hx : x.shape = [B, i]) :
    ∃ G g, (M.reshapeInfer [B, o, i] [] >>= fun m => einsum% "bkji,bj->bki" [m, x]) = .ok G ∧
      (v.reshape [B, o, i] >>= fun u => einsum% "bkj,bj->bk" [u, x]) = .ok g ∧ IsCol B o r j G g := by
  have hk : 0 < B * (o * i) := Nat.mul_pos hB (Nat.mul_pos ho hi)
  have e1 : M.reshapeInfer [B, o, i] [] = .ok ⟨[B, o, i, r], M.data⟩ := by
    have : M.numel = r * (B * (o * i)) := by simp only [numel, h.1, size_cons, size_nil, mul_one]; ring
    simp only [reshapeInfer, size_cons, size_nil, mul_one, this, Nat.mul_mod_left, Nat.ne_of_gt hk, if_false, if_true, Nat.mul_div_cancel _ hk]
    rfl
  have e2 : v.reshape [B, o, i] = .ok ⟨[B, o, i], v.data⟩ := by
    simp only [reshape, numel, h.2.1, size_cons, size_nil, mul_one, if_true]
  have a : Ret (einsum% "bkji,bj->bki" [⟨[B, o, i, r], M.data⟩, x]) fun G => G.shape = [B, o, r] ∧ ∀ (b : Fin B) (k : Fin o),
      G.get [↑b, ↑k, j] = sumRange i fun l => (⟨[B, o, i, r], M.data⟩ : Tensor α).get [↑b, ↑k, l, j] * x.get [↑b, l] := by
    refine ein_ret (dm [('b', B), ('i', r), ('j', i), ('k', o)]) (by simp [ShapesFit, dm, hx]) (by simp) fun G hs hg => ⟨by simpa [dm] using hs, ?_⟩
    intro b k
    rw [hg _ (by simp [dm, hj])]
    simp [sumLabels, contracted, envGet, prodList, plainProd, dm]
  have c : Ret (einsum% "bkj,bj->bk" [⟨[B, o, i], v.data⟩, x]) fun g => g.shape = [B, o] ∧ ∀ (b : Fin B) (k : Fin o),
      g.get [↑b, ↑k] = sumRange i fun l => (⟨[B, o, i], v.data⟩ : Tensor α).get [↑b, ↑k, l] * x.get [↑b, l] := by
    refine ein_ret (dm [('b', B), ('j', i), ('k', o)]) (by simp [ShapesFit, dm, hx]) (by simp) fun G hs hg => ⟨by simpa [dm] using hs, ?_⟩
    intro b k
    rw [hg _ (by simp [dm])]
    simp [sumLabels, contracted, envGet, prodList, plainProd, dm]
  obtain ⟨G, a1, a2, a3⟩ := a
  obtain ⟨g, c1, c2, c3⟩ := c
  refine ⟨G, g, by rw [e1]; exact a1, by rw [e2]; exact c1, a2, c2, fun b k => ?_⟩
  rw [a3, c3]
  refine sumRange_congr fun l hl => ?_
  have hlt : k * i + l < o * i := by
    have := k.2
    calc k * i + l < k * i + i := by omega
      _ = (k + 1) * i := by ring
      _ ≤ o * i := Nat.mul_le_mul_right _ this
  have := h.2.2 b ⟨k * i + l, hlt⟩
  rw [get3 h.1, get2 h.2.1] at this
  rw [get4 rfl, get3 rfl]
  show M.data _ * _ = v.data _ * _
  rw [show (b : ℕ) * (o * (i * r)) + (k * (i * r) + (l * r + j)) = b * (o * i * r) + ((k * i + l) * r + j) by ring,
    show (b : ℕ) * (o * i) + (k * i + l) = b * (o * i) + (k * i + l) from rfl]
  exact congrArg (· * _) this

theorem linear_colW {M v x y W : Tensor α} {bias : Option (Tensor α)} {B r i o j P : Nat} (hj : j < r) (hB : 0 < B) (hi : 0 < i) (ho : 0 < o)
    (hP : P = o * i + if bias.isSome then o else 0) (h : IsCol B P r j M v) (hx : x.shape = [B, i]) (hy : y.shape = [B, o]) :
    ∃ G g, Linear.jmp W bias P x (some y) (some M) .weight = .ok (some G) ∧ Linear.jvp W bias P x (some y) v .weight = .ok (some g) ∧ IsCol B o r j G g := by
  have hd : x.dims2 = .ok (B, i) := by simp [dims2, hx]
  have d1 : M.dim 1 = .ok P := by simp [dim, h.1]
  have d2 : v.dim 1 = .ok P := by simp [dim, h.2.1]
  have d3 : y.dim 1 = .ok o := by simp [dim, hy]
  have has : assertR (decide True) = .ok () := by simp [assertR]
  cases bias with
  | none =>
    have hP' : P = o * i := by simpa using hP
    obtain ⟨G, g, h1, h2, h3⟩ := outer_col hj hB hi ho (hP' ▸ h) hx
    refine ⟨G, g, ?_, ?_, h3⟩
    · simp only [Linear.jmp, hd, Linear.getVal, d1, d3, has, bind, Except.bind]
      simp only [bind, Except.bind] at h1
      split at h1
      · cases h1
      · rename_i m hm
        simp only [h1]
        rfl
    · simp only [Linear.jvp, hd, Linear.getVal, d2, d3, has, bind, Except.bind]
      simp only [bind, Except.bind] at h2
      split at h2
      · cases h2
      · rename_i m hm
        simp only [h2]
        rfl
  | some c =>
    have hP' : P = o * i + o := by simpa using hP
    obtain ⟨M1, v1, s1, s2, s3⟩ := h.slice hj (lo := 0) (q := o * i) (by omega)
    obtain ⟨M2, v2, t1, t2, t3⟩ := h.slice hj (lo := o * i) (q := o) (by omega)
    rw [Nat.zero_add] at s1 s2
    rw [← hP'] at t1 t2
    obtain ⟨G, g, h1, h2, h3⟩ := outer_col hj hB hi ho s3 hx
    obtain ⟨K, t, a1, a2, a3⟩ := h3.add t3
    refine ⟨K, t, ?_, ?_, a3⟩
    · simp only [Linear.jmp, hd, Linear.getVal, d1, d3, has, bind, Except.bind, s1, t1]
      simp only [bind, Except.bind] at h1
      split at h1
      · cases h1
      · rename_i m hm
        simp only [h1, a1]
        rfl
    · simp only [Linear.jvp, hd, Linear.getVal, d2, d3, has, bind, Except.bind, s2, t2]
      simp only [bind, Except.bind] at h2
      split at h2
      · cases h2
      · rename_i m hm
        simp only [h2, a2]
        rfl
end

/-- a matrix and one of its columns, or nothing twice; nothing only if there are no parameters -/
def ColO {α : Type} (B k r j p : Nat) : Option (Tensor α) → Option (Tensor α) → Prop
  | none, none => p = 0
  | some G, some g => IsCol B k r j G g
  | _, _ => False

section
variable {α : Type} [Zero α] [One α] [Add α] [Mul α]

theorem accum_col {B k r j p q : Nat} {a a' n n' : Option (Tensor α)} (h : ColO B k r j p a a') (h' : ColO B k r j q n n') :
    ∃ c c', Sequential.accum a n = .ok c ∧ Sequential.accum a' n' = .ok c' ∧ ColO B k r j (p + q) c c' := by
  cases n with
  | none =>
    cases n' with
    | some _ => exact h'.elim
    | none =>
      have hq : q = 0 := h'
      exact ⟨a, a', rfl, rfl, by rw [hq]; exact h⟩
  | some n =>
    cases n' with
    | none => exact h'.elim
    | some n' =>
      cases a with
      | none =>
        cases a' with
        | some _ => exact h.elim
        | none => exact ⟨some n, some n', rfl, rfl, h'⟩
      | some a =>
        cases a' with
        | none => exact h.elim
        | some a' =>
          obtain ⟨G, g, h1, h2, h3⟩ := IsCol.addInPlace h h'
          refine ⟨some G, some g, ?_, ?_, h3⟩
          · show some <$> a.addInPlace n = _
            rw [h1]; rfl
          · show some <$> a'.addInPlace n' = _
            rw [h2]; rfl
end

section
set_option linter.unusedSectionVars false
variable {β : Type} [Zero β] [One β] [Add β] [Sub β] [Mul β] [Neg β] [Div β] [NatCast β] [LT β] [DecidableLT β] [Trans β] (f : β → ℝ)

mutual
theorem Net.nParams_in (q : ℝ → β) (fn : (ℝ → ℝ) → β → β) {m : Nat} : {s s' : List Nat} → {n k p : Nat} → (N : Net s n s' k p) → N.ReluSeq m →
    (N.modIn q fn).nParams = p
  | _, _, _, _, _, .linear id wId bId i o hi ho, _ => by cases bId <;> rfl
  | _, _, _, _, _, .act a id s n hs hn, h => by
    have ha : a = .relu := h
    subst ha
    rfl
  | _, _, _, _, _, .flatten .., _ => rfl
  | _, _, _, _, _, .reshape .., _ => rfl
  | _, _, _, _, _, .l2norm .., h => h.elim
  | _, _, _, _, _, .conv .., h => h.elim
  | _, _, _, _, _, .upsample .., h => h.elim
  | _, _, _, _, _, .maxpool .., h => h.elim
  | _, _, _, _, _, .skip .., h => h.elim
  | _, _, _, _, _, .seq _ c, h => Chain.nParams_in q fn c h
theorem Chain.nParams_in (q : ℝ → β) (fn : (ℝ → ℝ) → β → β) {m : Nat} : {s s' : List Nat} → {n k p l : Nat} → (c : Chain s n s' k p l) → c.ReluSeq m →
    Sequential.nParams (c.modsIn q fn) = p
  | _, _, _, _, _, _, .nil .., _ => rfl
  | _, _, _, _, _, _, .snoc c N, h => by
    have h1 := Chain.nParams_in q fn c h.1
    have h2 := Net.nParams_in q fn N h.2
    simp only [Sequential.nParams, Chain.modsIn, List.map_append, List.sum_append, List.map_cons, List.map_nil, List.sum_cons, List.sum_nil, Nat.add_zero] at h1 ⊢
    rw [h1, h2]
end

/-- the two programs raise the same exception, or return a matrix and one of its columns, or nothing; the same state is left -/
def ColW (P Q : Prog β (Option (Tensor β))) (sf : Store β) (B k r j p : Nat) : Prop :=
  (∃ e s1, P sf = (.error e, s1) ∧ Q sf = (.error e, s1)) ∨
  ∃ G g s1, P sf = (.ok G, s1) ∧ Q sf = (.ok g, s1) ∧ ColO B k r j p G g ∧ s1.param = sf.param

theorem bind_err {α γ δ : Type} {P : Prog α γ} {F : γ → Prog α δ} {e : Err} {s s1 : Store α} (h : P s = (.error e, s1)) : (P >>= F) s = (.error e, s1) := by
  show Prog.bind P F s = _
  simp only [Prog.bind, h]

theorem bind_lift {α γ δ : Type} {R : Res γ} {F : γ → Prog α δ} {s : Store α} {c : γ} (h : R = .ok c) : ((liftM R : Prog α γ) >>= F) s = F c s := by
  subst h
  rfl

mutual
theorem Net.colW (q : ℝ → β) (fn : (ℝ → ℝ) → β → β) (m : Nat) {B r j : Nat} (hB : 0 < B) (hj : j < r) :
    {s s' : List Nat} → {n k p : Nat} → (N : Net s n s' k p) → N.ReluSeq m → ∀ {sf : Store β}, N.Shapes (sf.image f) →
    ∀ {x y A v : Tensor β}, x.shape = B :: s → y.shape = B :: s' → IsCol B p r j A v →
      ColW ((N.modIn q fn).jmp x (some y) (some A) .weight) ((N.modIn q fn).jvp x (some y) v .weight) sf B k r j p
  | _, _, _, _, _, .linear id wId bId i o hi ho, hN, sf, hS, x, y, A, v, hx, hy, hv => by
    obtain ⟨G, g, h1, h2, h3⟩ := linear_colW (W := sf.param wId) (bias := bId.map sf.param) hj hB hi ho (by cases bId <;> rfl) hv hx hy
    refine .inr ⟨some G, some g, sf, ?_, ?_, h3, rfl⟩
    · cases bId <;> exact congrArg (·, sf) h1
    · cases bId <;> exact congrArg (·, sf) h2
  | _, _, _, _, _, .act a id s n hs hn, hN, sf, hS, x, y, A, v, hx, hy, hv => by
    have ha : a = .relu := hN
    subst ha
    exact .inr ⟨none, none, sf, rfl, rfl, rfl, rfl⟩
  | _, _, _, _, _, .flatten id s n hs hn, hN, sf, hS, x, y, A, v, hx, hy, hv => .inr ⟨none, none, sf, rfl, rfl, rfl, rfl⟩
  | _, _, _, _, _, .reshape id s dims n hs hd hn z hz, hN, sf, hS, x, y, A, v, hx, hy, hv => .inr ⟨none, none, sf, rfl, rfl, rfl, rfl⟩
  | _, _, _, _, _, .l2norm _ _ _ _ _ _ _, hN, _, _, _, _, _, _, _, _, _ => hN.elim
  | _, _, _, _, _, .conv _ _ _ _, hN, _, _, _, _, _, _, _, _, _ => hN.elim
  | _, _, _, _, _, .upsample _ _ _ _ _ _ _ _ _, hN, _, _, _, _, _, _, _, _, _ => hN.elim
  | _, _, _, _, _, .maxpool _ _, hN, _, _, _, _, _, _, _, _, _ => hN.elim
  | _, _, _, _, _, .skip _ _ _, hN, _, _, _, _, _, _, _, _, _ => hN.elim
  | _, _, _, _, _, @Net.seq _ _ _ _ p l id c, hN, sf, hS, x, y, A, v, hx, hy, hv => by
    have key := Chain.colW q fn m hB hj [] hv c hN hS (lo := 0) (by omega) hx (a := none) (a' := none) rfl
    simp only [List.append_nil, Nat.zero_add] at key
    have e1 : ((Net.seq id c).modIn q fn).jmp x (some y) (some A) .weight sf = (do
        let (r, p) ← Sequential.jmpWeight A (c.modsIn q fn) x 0 none
        Prog.assert (p = Sequential.nParams (c.modsIn q fn))
        pure r) sf :=
      Prog.bind_ok (s' := sf) (b := ()) (by simp [Prog.assert])
    have e2 : ((Net.seq id c).modIn q fn).jvp x (some y) v .weight sf = (do
        let (r, p) ← Sequential.jvpWeight v (c.modsIn q fn) x 0 none
        Prog.assert (p = Sequential.nParams (c.modsIn q fn))
        pure r) sf :=
      Prog.bind_ok (s' := sf) (b := ()) (by simp [Prog.assert])
    rw [ColW, e1, e2]
    rcases key with ⟨e, s1, h1, h2⟩ | ⟨x', a1, a1', s1, h1, h2, h3, h4, h5⟩
    · exact .inl ⟨e, s1, bind_err h1, bind_err h2⟩
    · refine .inr ⟨a1, a1', s1, (Prog.bind_ok h1).trans ?_, (Prog.bind_ok h2).trans ?_, h4, h5⟩
      · exact (Prog.bind_ok (s' := s1) (b := ()) (by simp [Prog.assert, Chain.nParams_in q fn c hN])).trans rfl
      · exact (Prog.bind_ok (s' := s1) (b := ()) (by simp [Prog.assert, Chain.nParams_in q fn c hN])).trans rfl
theorem Chain.colW (q : ℝ → β) (fn : (ℝ → ℝ) → β → β) (m : Nat) {B r j K : Nat} (hB : 0 < B) (hj : j < r) (tl : List (Mod β)) {A v : Tensor β} (hv : IsCol B K r j A v) :
    {s s' : List Nat} → {n k p l : Nat} → (c : Chain s n s' k p l) → c.ReluSeq m → ∀ {sf : Store β}, c.Shapes (sf.image f) → ∀ {lo : Nat}, lo + p ≤ K →
    ∀ {x : Tensor β} {a a' : Option (Tensor β)}, x.shape = B :: s → ColO B n r j lo a a' →
    (∃ e s1, Sequential.jmpWeight A (c.modsIn q fn ++ tl) x lo a sf = (.error e, s1) ∧ Sequential.jvpWeight v (c.modsIn q fn ++ tl) x lo a' sf = (.error e, s1)) ∨
    ∃ x' a1 a1' s1, Sequential.jmpWeight A (c.modsIn q fn ++ tl) x lo a sf = Sequential.jmpWeight A tl x' (lo + p) a1 s1 ∧
      Sequential.jvpWeight v (c.modsIn q fn ++ tl) x lo a' sf = Sequential.jvpWeight v tl x' (lo + p) a1' s1 ∧ x'.shape = B :: s' ∧ ColO B k r j (lo + p) a1 a1' ∧
      s1.param = sf.param
  | _, _, _, _, _, _, .nil s n hs hn, hN, sf, hS, lo, hlo, x, a, a', hx, ha => .inr ⟨x, a, a', sf, rfl, rfl, hx, ha, rfl⟩
  | _, _, _, _, _, _, @Chain.snoc _ _ _ _ _ k' p p' _ c N, hN, sf, hS, lo, hlo, x, a, a', hx, ha => by
    simp only [Chain.modsIn, List.append_assoc, List.singleton_append]
    rcases Chain.colW q fn m hB hj (N.modIn q fn :: tl) hv c hN.1 hS.1 (lo := lo) (by omega) hx ha with h | ⟨x', a1, a1', s1, h1, h2, h3, h4, h5⟩
    · exact .inl h
    · rw [h1, h2]
      have hS' : N.Shapes (s1.image f) := N.shapes_of (st := sf.image f) (st' := s1.image f) (fun i => by simp only [Store.image, h5]) hS.2
      cases hc : (N.modIn q fn).call x' s1 with
      | mk w s2 =>
        cases w with
        | error e => exact .inl ⟨e, s2, bind_err hc, bind_err hc⟩
        | ok val =>
          obtain ⟨s3, h6, h7⟩ := call_inv hc
          have hp2 : s2.param = s1.param := h7.trans (Net.fwd_param q fn N hN.2 h6)
          have hy := Net.fwd_shape f q fn hB N hN.2 hS' h3 h6
          have hS2 : N.Shapes (s2.image f) := N.shapes_of (st := s1.image f) (st' := s2.image f) (fun i => by simp only [Store.image, hp2]) hS'
          obtain ⟨A1, v1, b1, b2, b3⟩ := hv.slice hj (lo := lo + p) (q := p') (by omega)
          have hn := Net.nParams_in q fn N hN.2
          have step : (∃ e s4, Sequential.through a1 (fun a => (N.modIn q fn).jmp x' (some val) (some a) .input) s2 = (.error e, s4) ∧
                Sequential.through a1' (fun a => (N.modIn q fn).jvp x' (some val) a .input) s2 = (.error e, s4)) ∨
              ∃ a2 a2' s4, Sequential.through a1 (fun a => (N.modIn q fn).jmp x' (some val) (some a) .input) s2 = (.ok a2, s4) ∧
                Sequential.through a1' (fun a => (N.modIn q fn).jvp x' (some val) a .input) s2 = (.ok a2', s4) ∧ ColO B k' r j (lo + p) a2 a2' ∧ s4.param = s2.param := by
            cases a1 with
            | none =>
              cases a1' with
              | some _ => exact h4.elim
              | none => exact .inr ⟨none, none, s2, rfl, rfl, h4, rfl⟩
            | some t =>
              cases a1' with
              | none => exact h4.elim
              | some t' =>
                rcases Net.colR f q fn m hB hj N hN.2 hS2 h3 hy h4 with ⟨e, s4, c1, c2⟩ | ⟨G, g, s4, c1, c2, c3, c4⟩
                · exact .inl ⟨e, s4, c1, c2⟩
                · exact .inr ⟨some G, some g, s4, c1, c2, c3, c4⟩
          rcases step with ⟨e, s4, c1, c2⟩ | ⟨a2, a2', s4, c1, c2, c3, c4⟩
          · exact .inl ⟨e, s4, (Prog.bind_ok hc).trans (bind_err c1), (Prog.bind_ok hc).trans (bind_err c2)⟩
          · have hS4 : N.Shapes (s4.image f) := N.shapes_of (st := s2.image f) (st' := s4.image f) (fun i => by simp only [Store.image, c4]) hS2
            rw [← hn] at b1 b2
            rcases Net.colW q fn m hB hj N hN.2 hS4 h3 hy b3 with ⟨e, s5, d1, d2⟩ | ⟨G, g, s5, d1, d2, d3, d4⟩
            · exact .inl ⟨e, s5, (Prog.bind_ok hc).trans ((Prog.bind_ok c1).trans ((bind_lift b1).trans (bind_err d1))),
                (Prog.bind_ok hc).trans ((Prog.bind_ok c2).trans ((bind_lift b2).trans (bind_err d2)))⟩
            · obtain ⟨a3, a3', e1, e2, e3⟩ := accum_col c3 d3
              rw [← Nat.add_assoc]
              refine .inr ⟨val, a3, a3', s5, (Prog.bind_ok hc).trans ((Prog.bind_ok c1).trans ((bind_lift b1).trans ((Prog.bind_ok d1).trans ((bind_lift e1).trans ?_)))),
                (Prog.bind_ok hc).trans ((Prog.bind_ok c2).trans ((bind_lift b2).trans ((Prog.bind_ok d2).trans ((bind_lift e2).trans ?_)))), hy, e3,
                d4.trans (c4.trans (hp2.trans h5))⟩
              · rw [hn]
              · rw [hn]
end

/-- in forward mode `val=None` makes no difference -/
theorem Net.jmpW_val_none (q : ℝ → β) (fn : (ℝ → ℝ) → β → β) {m : Nat} {s s' : List Nat} {n k p : Nat} (N : Net s n s' k p) (hN : N.ReluSeq m)
    {sf sf' : Store β} {x y : Tensor β} (h : (N.modIn q fn).forward x sf = (.ok y, sf')) (A v : Tensor β) :
    (N.modIn q fn).jmp x none (some A) .weight sf = (N.modIn q fn).jmp x (some y) (some A) .weight sf ∧
    (N.modIn q fn).jvp x none v .weight sf = (N.modIn q fn).jvp x (some y) v .weight sf := by
  cases N with
  | act a id s n hs hn =>
    have ha : a = .relu := hN
    subst ha
    exact ⟨rfl, rfl⟩
  | linear id wId bId i o hi ho =>
    injection h with h h2
    have e : Linear.getVal (sf.param wId) (bId.map sf.param) x none = Linear.getVal (sf.param wId) (bId.map sf.param) x (some y) := h
    constructor
    · show (Linear.jmp (sf.param wId) (bId.map sf.param) _ x none (some A) .weight, sf) = (Linear.jmp (sf.param wId) (bId.map sf.param) _ x (some y) (some A) .weight, sf)
      simp only [Linear.jmp, e]
    · show (Linear.jvp (sf.param wId) (bId.map sf.param) _ x none v .weight, sf) = (Linear.jvp (sf.param wId) (bId.map sf.param) _ x (some y) v .weight, sf)
      simp only [Linear.jvp, e]
  | flatten => exact ⟨rfl, rfl⟩
  | reshape => exact ⟨rfl, rfl⟩
  | seq => exact ⟨rfl, rfl⟩
  | _ => exact hN.elim

mutual
theorem Net.ReluSeq.fwdW {m : Nat} : {s s' : List Nat} → {n k p : Nat} → {N : Net s n s' k p} → N.ReluSeq m → N.FwdW
  | _, _, _, _, _, .linear .., _ => by simp only [Net.FwdW]
  | _, _, _, _, _, .act .., _ => by simp only [Net.FwdW]
  | _, _, _, _, _, .flatten .., _ => by simp only [Net.FwdW]
  | _, _, _, _, _, .reshape .., _ => by simp only [Net.FwdW]
  | _, _, _, _, _, .l2norm .., h => h.elim
  | _, _, _, _, _, .conv .., h => h.elim
  | _, _, _, _, _, .upsample .., h => h.elim
  | _, _, _, _, _, .maxpool .., h => h.elim
  | _, _, _, _, _, .skip .., h => h.elim
  | _, _, _, _, _, .seq _ c, h => by simp only [Net.FwdW]; exact Chain.ReluSeq.fwdW (c := c) h
theorem Chain.ReluSeq.fwdW {m : Nat} : {s s' : List Nat} → {n k p l : Nat} → {c : Chain s n s' k p l} → c.ReluSeq m → c.FwdW
  | _, _, _, _, _, _, .nil .., _ => by simp only [Chain.FwdW]
  | _, _, _, _, _, _, .snoc c N, h => by simp only [Chain.FwdW]; exact ⟨Chain.ReluSeq.fwdW h.1, Net.ReluSeq.fwdW h.2⟩
end
end
end NNJ
