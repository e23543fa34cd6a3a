import Verif.Proofs.RoundAt

/-! Backward products of a sample depend on that sample alone, in any arithmetic. -/

namespace NNJ
open Tensor

/-- the samples `b` and `b'` of two batches of samples of the same shape are equal -/
def TRel {α : Type} (b b' : Nat) (t t' : Tensor α) : Prop :=
  ∃ B B' s, t.shape = B :: s ∧ t'.shape = B' :: s ∧ SampleEq b b' (size s) t t'

/-- the feature maps kept under the identities in `D` agree at the samples `b` and `b'` -/
structure SRel {α : Type} (b b' : Nat) (D : Nat → Prop) (σ τ : Store α) : Prop where
  param : τ.param = σ.param
  hooks : τ.hooks = σ.hooks
  fmaps : ∀ i, D i → ∃ L L', σ.fmaps i = some L ∧ τ.fmaps i = some L' ∧ List.Forall₂ (TRel b b') L L'

mutual
/-- the identities of all Sequentials inside are in `D` -/
def Net.In (D : Nat → Prop) : {s s' : List Nat} → {n k p : Nat} → Net s n s' k p → Prop
  | _, _, _, _, _, .seq id c => D id ∧ c.In D
  | _, _, _, _, _, _ => True
def Chain.In (D : Nat → Prop) : {s s' : List Nat} → {n k p l : Nat} → Chain s n s' k p l → Prop
  | _, _, _, _, _, _, .nil _ _ _ _ => True
  | _, _, _, _, _, _, .snoc c N => c.In D ∧ N.In D
end

mutual
theorem Net.In.mono {D D' : Nat → Prop} (hD : ∀ i, D i → D' i) : {s s' : List Nat} → {n k p : Nat} → {N : Net s n s' k p} → N.In D → N.In D'
  | _, _, _, _, _, .seq id c, h => by simp only [Net.In] at h ⊢; exact ⟨hD _ h.1, Chain.In.mono hD h.2⟩
  | _, _, _, _, _, .linear .., _ => by simp only [Net.In]
  | _, _, _, _, _, .act .., _ => by simp only [Net.In]
  | _, _, _, _, _, .flatten .., _ => by simp only [Net.In]
  | _, _, _, _, _, .reshape .., _ => by simp only [Net.In]
  | _, _, _, _, _, .l2norm .., _ => by simp only [Net.In]
  | _, _, _, _, _, .conv .., _ => by simp only [Net.In]
  | _, _, _, _, _, .upsample .., _ => by simp only [Net.In]
  | _, _, _, _, _, .maxpool .., _ => by simp only [Net.In]
  | _, _, _, _, _, .skip .., _ => by simp only [Net.In]
theorem Chain.In.mono {D D' : Nat → Prop} (hD : ∀ i, D i → D' i) : {s s' : List Nat} → {n k p l : Nat} → {c : Chain s n s' k p l} → c.In D → c.In D'
  | _, _, _, _, _, _, .nil .., _ => by simp only [Chain.In]
  | _, _, _, _, _, _, .snoc c N, h => by simp only [Chain.In] at h ⊢; exact ⟨Chain.In.mono hD h.1, Net.In.mono hD h.2⟩
end

section
variable {α : Type}

theorem forall2_snoc {R : α → α → Prop} {a a' : α} (h : R a a') : ∀ {L L' : List α}, List.Forall₂ R L L' → List.Forall₂ R (L ++ [a]) (L' ++ [a'])
  | _, _, .nil => .cons h .nil
  | _, _, .cons h1 h2 => .cons h1 (forall2_snoc h h2)

theorem forall2_get {R : α → α → Prop} : ∀ {L L' : List α}, List.Forall₂ R L L' → ∀ {i : Nat} {a a' : α}, L[i]? = some a → L'[i]? = some a' → R a a'
  | _, _, .cons h1 _, 0, _, _, e, e' => by
    simp only [List.getElem?_cons_zero, Option.some.injEq] at e e'
    subst e e'
    exact h1
  | _, _, .cons _ h2, i + 1, _, _, e, e' => forall2_get h2 (by simpa using e) (by simpa using e')

theorem runHooks_rel {b b' : Nat} {D : Nat → Prop} {v v' : Tensor α} (hv : TRel b b' v v') : ∀ (hs : List Nat) {σ τ σ' τ' : Store α}, SRel b b' D σ τ →
    Mod.runHooks v hs σ = (.ok (), σ') → Mod.runHooks v' hs τ = (.ok (), τ') → SRel b b' D σ' τ'
  | [], σ, τ, σ', τ', h, e, e' => by
    injection e with _ e
    injection e' with _ e'
    subst e e'
    exact h
  | i :: is, σ, τ, σ', τ', h, e, e' => by
    obtain ⟨_, s1, e1, e2⟩ := NaN.bind_inv (p := Mod.runHook v i) e
    obtain ⟨_, t1, e1', e2'⟩ := NaN.bind_inv (p := Mod.runHook v' i) e'
    refine runHooks_rel hv is ?_ e2 e2'
    unfold Mod.runHook at e1 e1'
    cases hL : σ.fmaps i with
    | none => rw [hL] at e1; injection e1 with e1; cases e1
    | some L =>
      cases hL' : τ.fmaps i with
      | none => rw [hL'] at e1'; injection e1' with e1'; cases e1'
      | some L' =>
        rw [hL] at e1
        rw [hL'] at e1'
        injection e1 with _ e1
        injection e1' with _ e1'
        subst e1 e1'
        refine ⟨h.param, h.hooks, fun a ha => ?_⟩
        by_cases hai : a = i
        · subst hai
          obtain ⟨K, K', k1, k2, k3⟩ := h.fmaps a ha
          rw [hL] at k1
          rw [hL'] at k2
          injection k1 with k1
          injection k2 with k2
          subst k1 k2
          exact ⟨L ++ [v], L' ++ [v'], by simp, by simp, forall2_snoc hv k3⟩
        · obtain ⟨K, K', k1, k2, k3⟩ := h.fmaps a ha
          exact ⟨K, K', by simp [hai, k1], by simp [hai, k2], k3⟩

theorem call_hooks {m : Mod α} {x y : Tensor α} {s s' : Store α} (h : m.call x s = (.ok y, s')) :
    ∃ s1, m.forward x s = (.ok y, s1) ∧ Mod.runHooks y (s1.hooks m.id) s1 = (.ok (), s') := by
  obtain ⟨v, s1, h1, h2⟩ := NaN.bind_inv h
  obtain ⟨hs, s2, h3, h4⟩ := NaN.bind_inv h2
  obtain ⟨_, s3, h5, h6⟩ := NaN.bind_inv h4
  injection h3 with h3 h3'
  injection h3 with h3
  injection h6 with h6 h7
  injection h6 with h6
  subst h3 h3' h6 h7
  exact ⟨s1, h1, h5⟩
end

section
set_option linter.unusedSectionVars false
variable {β : Type} [Zero β] [One β] [Add β] [Sub β] [Mul β] [Neg β] [Div β] [NatCast β] [LT β] [DecidableLT β] [Trans β] (f : β → ℝ)

mutual
theorem Net.fwdRel (q : ℝ → β) (fn : (ℝ → ℝ) → β → β) {m B B' b b' : Nat} (hB : 0 < B) (hB' : 0 < B') : {s s' : List Nat} → {n k p : Nat} → (N : Net s n s' k p) →
    N.ReluSeq m → ∀ {D : Nat → Prop} {sf sg sf' sg' : Store β} {x x' y y' : Tensor β}, SRel b b' D sf sg → N.Shapes (sf.image f) → x.shape = B :: s → x'.shape = B' :: s →
    SampleEq b b' n x x' → (N.modIn q fn).forward x sf = (.ok y, sf') → (N.modIn q fn).forward x' sg = (.ok y', sg') →
    ∃ D' : Nat → Prop, (∀ i, D i → D' i) ∧ SRel b b' D' sf' sg' ∧ N.In D'
  | _, _, _, _, _, .linear id wId bId i o hi ho, hN, D, sf, sg, sf', sg', x, x', y, y', hr, hS, hx, hx', he, h, h' => by
    injection h with _ h
    injection h' with _ h'
    subst h h'
    exact ⟨D, fun _ h => h, hr, by simp only [Net.In]⟩
  | _, _, _, _, _, .act a id s n hs hn, hN, D, sf, sg, sf', sg', x, x', y, y', hr, hS, hx, hx', he, h, h' => by
    injection h with _ h
    injection h' with _ h'
    subst h h'
    exact ⟨D, fun _ h => h, hr, by simp only [Net.In]⟩
  | _, _, _, _, _, .flatten id s n hs hn, hN, D, sf, sg, sf', sg', x, x', y, y', hr, hS, hx, hx', he, h, h' => by
    injection h with _ h
    injection h' with _ h'
    subst h h'
    exact ⟨D, fun _ h => h, hr, by simp only [Net.In]⟩
  | _, _, _, _, _, .reshape id s dims n hs hd hn z hz, hN, D, sf, sg, sf', sg', x, x', y, y', hr, hS, hx, hx', he, h, h' => by
    injection h with _ h
    injection h' with _ h'
    subst h h'
    exact ⟨D, fun _ h => h, hr, by simp only [Net.In]⟩
  | _, _, _, _, _, .l2norm .., hN, _, _, _, _, _, _, _, _, _, _, _, _, _, _, _, _ => hN.elim
  | _, _, _, _, _, .conv .., hN, _, _, _, _, _, _, _, _, _, _, _, _, _, _, _, _ => hN.elim
  | _, _, _, _, _, .upsample .., hN, _, _, _, _, _, _, _, _, _, _, _, _, _, _, _, _ => hN.elim
  | _, _, _, _, _, .maxpool .., hN, _, _, _, _, _, _, _, _, _, _, _, _, _, _, _, _ => hN.elim
  | _, _, _, _, _, .skip .., hN, _, _, _, _, _, _, _, _, _, _, _, _, _, _, _, _ => hN.elim
  | s, _, n, _, _, .seq id c, hN, D, sf, sg, sf', sg', x, x', y, y', hr, hS, hx, hx', he, h, h' => by
    obtain ⟨_, s1, h1, h2⟩ := NaN.bind_inv (show Sequential.forward id true (c.modsIn q fn) x sf = _ from h)
    obtain ⟨_, t1, h1', h2'⟩ := NaN.bind_inv (show Sequential.forward id true (c.modsIn q fn) x' sg = _ from h')
    injection h1 with _ h1
    injection h1' with _ h1'
    have hn : size s = n := (Net.seq id c).sizes.1
    have hr1 : SRel b b' (fun i => D i ∨ i = id) s1 t1 := by
      subst h1 h1'
      refine ⟨hr.param, hr.hooks, fun i hi => ?_⟩
      by_cases e : i = id
      · subst e
        exact ⟨[x], [x'], by simp, by simp, .cons ⟨B, B', s, hx, hx', hn ▸ he⟩ .nil⟩
      · obtain ⟨K, K', k1, k2, k3⟩ := hr.fmaps i (hi.resolve_right e)
        exact ⟨K, K', by simp [e, k1], by simp [e, k2], k3⟩
    have e : s1.param = sf.param := (congrArg Store.param h1).symm
    have hS' : c.Shapes (s1.image f) := c.shapes_of (st := sf.image f) (st' := s1.image f) (fun i => by simp only [Store.image, e]) hS
    obtain ⟨D', a1, a2, a3⟩ := Chain.fwdRel q fn hB hB' c hN hr1 hS' hx hx' he h2 h2'
    exact ⟨D', fun i h => a1 i (.inl h), a2, by simp only [Net.In]; exact ⟨a1 id (.inr rfl), a3⟩⟩
theorem Chain.fwdRel (q : ℝ → β) (fn : (ℝ → ℝ) → β → β) {m B B' b b' : Nat} (hB : 0 < B) (hB' : 0 < B') : {s s' : List Nat} → {n k p l : Nat} →
    (c : Chain s n s' k p l) → c.ReluSeq m → ∀ {D : Nat → Prop} {sf sg sf' sg' : Store β} {x x' y y' : Tensor β}, SRel b b' D sf sg → c.Shapes (sf.image f) → x.shape = B :: s →
    x'.shape = B' :: s → SampleEq b b' n x x' → Sequential.run (c.modsIn q fn) x sf = (.ok y, sf') → Sequential.run (c.modsIn q fn) x' sg = (.ok y', sg') →
    ∃ D' : Nat → Prop, (∀ i, D i → D' i) ∧ SRel b b' D' sf' sg' ∧ c.In D'
  | _, _, _, _, _, _, .nil s n hs hn, hN, D, sf, sg, sf', sg', x, x', y, y', hr, hS, hx, hx', he, h, h' => by
    injection h with _ h
    injection h' with _ h'
    subst h h'
    exact ⟨D, fun _ h => h, hr, by simp only [Chain.In]⟩
  | _, _, _, _, _, _, .snoc c N, hN, D, sf, sg, sf', sg', x, x', y, y', hr, hS, hx, hx', he, h, h' => by
    obtain ⟨v, s1, h1, h2⟩ := run_snoc_inv h
    obtain ⟨v', t1, h1', h2'⟩ := run_snoc_inv h'
    obtain ⟨s2, h3, h4⟩ := call_hooks h2
    obtain ⟨t2, h3', h4'⟩ := call_hooks h2'
    obtain ⟨D1, a1, a2, a3⟩ := Chain.fwdRel q fn hB hB' c hN.1 hr hS.1 hx hx' he h1 h1'
    have e := Chain.fwd_param q fn c hN.1 h1
    have hS' : N.Shapes (s1.image f) := N.shapes_of (st := sf.image f) (st' := s1.image f) (fun i => by simp only [Store.image, e]) hS.2
    have hSt : N.Shapes (t1.image f) := N.shapes_of (st := s1.image f) (st' := t1.image f) (fun i => by simp only [Store.image, a2.param]) hS'
    have hg : c.Shapes (sg.image f) := c.shapes_of (st := sf.image f) (st' := sg.image f) (fun i => by simp only [Store.image, hr.param]) hS.1
    have hv := Chain.fwd_shape f q fn hB c hN.1 hS.1 hx h1
    have hv' := Chain.fwd_shape f q fn hB' c hN.1 hg hx' h1'
    have ev := Chain.fwdAt f q fn hB hB' c hN.1 hr.param hS.1 hx hx' he h1 h1'
    obtain ⟨D2, b1, b2, b3⟩ := Net.fwdRel q fn hB hB' N hN.2 a2 hS' hv hv' ev h3 h3'
    have hy := Net.fwd_shape f q fn hB N hN.2 hS' hv h3
    have hy' := Net.fwd_shape f q fn hB' N hN.2 hSt hv' h3'
    have ey := Net.fwdAt f q fn hB hB' N hN.2 a2.param hS' hv hv' ev h3 h3'
    rw [b2.hooks] at h4'
    have := runHooks_rel ⟨B, B', _, hy, hy', N.sizes.2.1.symm ▸ ey⟩ _ b2 h4 h4'
    exact ⟨D2, fun i h => b1 i (a1 i h), this, by simp only [Chain.In]; exact ⟨a3.mono b1, b3⟩⟩
end

/-- both calls return, and the results agree at the samples -/
def VjpAt (M : Mod β) (σ τ : Store β) (x x' y y' v v' : Tensor β) (B B' b b' n : Nat) : Prop :=
  ∃ g g', M.vjp x (some y) v .input σ = (.ok (some g), σ) ∧ M.vjp x' (some y') v' .input τ = (.ok (some g'), τ) ∧ g.shape = [B, n] ∧ g'.shape = [B', n] ∧
    SampleEq b b' n g g'

mutual
theorem Net.vjpAt (q : ℝ → β) (fn : (ℝ → ℝ) → β → β) {m B B' b b' : Nat} (hb : b < B) (hb' : b' < B') {D : Nat → Prop} {σ τ : Store β} (hr : SRel b b' D σ τ) :
    {s s' : List Nat} → {n k p : Nat} → (N : Net s n s' k p) → N.ReluSeq m → N.Shapes (σ.image f) → N.In D →
    N.Fits B (fun i => (σ.fmaps i).map (List.map Tensor.shape)) → N.Fits B' (fun i => (τ.fmaps i).map (List.map Tensor.shape)) →
    ∀ {x x' y y' v v' : Tensor β}, y.shape = B :: s' → y'.shape = B' :: s' → SampleEq b b' k y y' → v.shape = [B, k] → v'.shape = [B', k] → SampleEq b b' k v v' →
    VjpAt (N.modIn q fn) σ τ x x' y y' v v' B B' b b' n
  | _, _, _, _, _, .linear id wId bId i o hi ho, hN, hS, hI, hF, hF', x, x', y, y', v, v', hy, hy', ey, hv, hv', ev => by
    obtain ⟨g, h1, h2, h3⟩ := vjp_linear_eval (W := σ.param wId) hv hS.1
    obtain ⟨g', h1', h2', h3'⟩ := vjp_linear_eval (W := σ.param wId) hv' hS.1
    refine ⟨g, g', ?_, ?_, h2, h2', fun c hc => ?_⟩
    · show (some <$> einsum% "bj,jk->bk" [v, σ.param wId], σ) = _
      rw [h1]; rfl
    · show (some <$> einsum% "bj,jk->bk" [v', τ.param wId], τ) = _
      rw [hr.param, h1']; rfl
    · have a1 := h3 ⟨b, hb⟩ ⟨c, hc⟩
      have a2 := h3' ⟨b', hb'⟩ ⟨c, hc⟩
      dsimp only at a1 a2
      rw [a1, a2]
      exact sumRange_congr fun l hl => by rw [ev l hl]
  | _, _, _, _, _, .act a id s n hs hn, hN, hS, hI, hF, hF', x, x', y, y', v, v', hy, hy', ey, hv, hv', ev => by
    have ha : a = .relu := hN
    subst ha
    obtain ⟨g, h1, h2, h3⟩ := relu_vjp_eval (x := x) hy hs (by omega) hv
    obtain ⟨g', h1', h2', h3'⟩ := relu_vjp_eval (x := x') hy' hs (by omega) hv'
    refine ⟨g, g', ?_, ?_, h2, h2', fun c hc => ?_⟩
    · show ((Activation.relu : PureLayer β).vjp x (some y) v .input, σ) = _
      rw [h1]
    · show ((Activation.relu : PureLayer β).vjp x' (some y') v' .input, τ) = _
      rw [h1']
    · have a1 := h3 ⟨b, hb⟩ ⟨c, hc⟩
      have a2 := h3' ⟨b', hb'⟩ ⟨c, hc⟩
      dsimp only at a1 a2
      rw [a1, a2, ev c hc, ey c hc]
  | _, _, _, _, _, .flatten id s n hs hn, hN, hS, hI, hF, hF', x, x', y, y', v, v', hy, hy', ey, hv, hv', ev => ⟨v, v', rfl, rfl, hv, hv', ev⟩
  | _, _, _, _, _, .reshape id s dims n hs hd hn z hz, hN, hS, hI, hF, hF', x, x', y, y', v, v', hy, hy', ey, hv, hv', ev => ⟨v, v', rfl, rfl, hv, hv', ev⟩
  | _, _, _, _, _, .l2norm .., hN, _, _, _, _, _, _, _, _, _, _, _, _, _, _, _, _ => hN.elim
  | _, _, _, _, _, .conv .., hN, _, _, _, _, _, _, _, _, _, _, _, _, _, _, _, _ => hN.elim
  | _, _, _, _, _, .upsample .., hN, _, _, _, _, _, _, _, _, _, _, _, _, _, _, _, _ => hN.elim
  | _, _, _, _, _, .maxpool .., hN, _, _, _, _, _, _, _, _, _, _, _, _, _, _, _, _ => hN.elim
  | _, _, _, _, _, .skip .., hN, _, _, _, _, _, _, _, _, _, _, _, _, _, _, _, _ => hN.elim
  | _, _, _, _, _, .seq id c, hN, hS, hI, hF, hF', x, x', y, y', v, v', hy, hy', ey, hv, hv', ev => by
    simp only [Net.In] at hI
    simp only [Net.Fits] at hF hF'
    obtain ⟨⟨L, hL, hT⟩, hF⟩ := hF
    obtain ⟨K, hK, rfl⟩ := Option.map_eq_some_iff.1 hL
    obtain ⟨⟨L', hL', hT'⟩, hF'⟩ := hF'
    obtain ⟨K', hK', rfl⟩ := Option.map_eq_some_iff.1 hL'
    obtain ⟨g, g', h1, h2, h3, h4, h5⟩ := Chain.vjpAt q fn hb hb' hr id [] hI.1 hK hK' c hN hS hI.2 hT hT' hF hF' hv hv' ev
    simp only [List.append_nil] at h1 h2
    refine ⟨g, g', ?_, ?_, h3, h4, h5⟩
    · refine Prog.bind_ok (s' := σ) (b := ()) (by simp [Prog.assert]) |>.trans ?_
      refine Prog.bind_ok (s' := σ) (b := y) rfl |>.trans ?_
      refine Prog.bind_ok (s' := σ) (b := g) ?_ |>.trans rfl
      rw [modsIn_length]; exact h1
    · refine Prog.bind_ok (s' := τ) (b := ()) (by simp [Prog.assert]) |>.trans ?_
      refine Prog.bind_ok (s' := τ) (b := y') rfl |>.trans ?_
      refine Prog.bind_ok (s' := τ) (b := g') ?_ |>.trans rfl
      rw [modsIn_length]; exact h2
theorem Chain.vjpAt (q : ℝ → β) (fn : (ℝ → ℝ) → β → β) {m B B' b b' : Nat} (hb : b < B) (hb' : b' < B') {D : Nat → Prop} {σ τ : Store β} (hr : SRel b b' D σ τ)
    (id : Nat) (tl : List (Mod β)) (hD : D id) {L L' : List (Tensor β)} (hL : σ.fmaps id = some L) (hL' : τ.fmaps id = some L') :
    {s s' : List Nat} → {n k p l : Nat} → (c : Chain s n s' k p l) → c.ReluSeq m → c.Shapes (σ.image f) → c.In D →
    c.Trail B (L.map Tensor.shape) → c.Trail B' (L'.map Tensor.shape) →
    c.Fits B (fun i => (σ.fmaps i).map (List.map Tensor.shape)) → c.Fits B' (fun i => (τ.fmaps i).map (List.map Tensor.shape)) →
    ∀ {v v' : Tensor β}, v.shape = [B, k] → v'.shape = [B', k] → SampleEq b b' k v v' →
    ∃ g g', Sequential.vjpInput id (c.modsIn q fn ++ tl) l v σ = (.ok g, σ) ∧ Sequential.vjpInput id (c.modsIn q fn ++ tl) l v' τ = (.ok g', τ) ∧
      g.shape = [B, n] ∧ g'.shape = [B', n] ∧ SampleEq b b' n g g'
  | _, _, _, _, _, _, .nil s n hs hn, hN, hS, hI, hT, hT', hF, hF', v, v', hv, hv', ev => ⟨v, v', rfl, rfl, hv, hv', ev⟩
  | _, _, _, _, _, _, @Chain.snoc sI sM sO n i k p p' l c N, hN, hS, hI, hT, hT', hF, hF', v, v', hv, hv', ev => by
    simp only [Chain.Trail] at hT hT'
    simp only [Chain.Fits] at hF hF'
    simp only [Chain.In] at hI
    obtain ⟨hT1, hT2⟩ := hT
    obtain ⟨hT1', hT2'⟩ := hT'
    have hl := hT1.last
    have hl' := hT1'.last
    rw [List.getElem?_map, Option.map_eq_some_iff] at hl hT2 hl' hT2'
    obtain ⟨x, hxL, hx⟩ := hl
    obtain ⟨y, hyL, hy⟩ := hT2
    obtain ⟨x', hxL', hx'⟩ := hl'
    obtain ⟨y', hyL', hy'⟩ := hT2'
    obtain ⟨K, K', k1, k2, k3⟩ := hr.fmaps id hD
    rw [hL] at k1
    rw [hL'] at k2
    injection k1 with k1
    injection k2 with k2
    subst k1 k2
    obtain ⟨_, _, t, e1, e2, e3⟩ := forall2_get k3 hyL hyL'
    rw [hy] at e1
    injection e1 with _ e1
    rw [← e1, N.sizes.2.1] at e3
    obtain ⟨u, u', a1, a2, a3, a4, a5⟩ := Net.vjpAt q fn hb hb' hr N hN.2 hS.2 hI.2 hF.2 hF'.2 (x := x) (x' := x') hy hy' e3 hv hv' ev
    obtain ⟨g, g', b1, b2, b3⟩ := Chain.vjpAt q fn hb hb' hr id (N.modIn q fn :: tl) hD hL hL' c hN.1 hS.1 hI.1 hT1 hT1' hF.1 hF'.1 a3 a4 a5
    refine ⟨g, g', ?_, ?_, b3⟩
    · simp only [Chain.modsIn, List.append_assoc, List.singleton_append]
      refine Prog.bind_ok (s' := σ) (b := N.modIn q fn) (by simp [Sequential.child, modsIn_length]) |>.trans ?_
      refine Prog.bind_ok (fmap_some hL hxL) |>.trans ?_
      refine Prog.bind_ok (fmap_some hL hyL) |>.trans ?_
      refine Prog.bind_ok a1 |>.trans ?_
      exact Prog.bind_ok (s' := σ) (b := u) rfl |>.trans b1
    · simp only [Chain.modsIn, List.append_assoc, List.singleton_append]
      refine Prog.bind_ok (s' := τ) (b := N.modIn q fn) (by simp [Sequential.child, modsIn_length]) |>.trans ?_
      refine Prog.bind_ok (fmap_some hL' hxL') |>.trans ?_
      refine Prog.bind_ok (fmap_some hL' hyL') |>.trans ?_
      refine Prog.bind_ok a2 |>.trans ?_
      exact Prog.bind_ok (s' := τ) (b := u') rfl |>.trans b2
end
end
end NNJ
