import Verif.Spec.Example
import Verif.Proofs.NetFacts
import Verif.Proofs.Rows

/-!
# C36: SkipConnection edge cases
-/

namespace NNJ.Props
open NNJ Matrix Tensor

variable {a c : Nat} {r : List Nat} {n k p l : Nat}

/-- A SkipConnection around layers without parameters raises on jacobian, jvp, jmp, jmjTp and
mjp(None) wrt weight — in every state, for every input and argument — although `vjp` and the other
backward products return None (C13_backward_none). -/
theorem C36_no_params (id fid : Nat) (ch : Chain (a :: r) n (c :: r) k p (l + 1)) (hp : p = 0) (x : Tensor ℝ) (val : Option (Tensor ℝ)) :
    let N := Net.skip id fid ch
    (N.mod.jacobian x val .weight).Raises ∧
    (∀ v, (N.mod.jvp x val v .weight).Raises) ∧
    (∀ M, (N.mod.jmp x val M .weight).Raises) ∧
    (∀ M fd td db, (N.mod.jmjTp x val M .weight fd td db).Raises) ∧
    (N.mod.mjp x val none .weight).Raises := by
  have h : NoneIff (Sequential.mod fid true ch.mods) := Sequential.noneIff _ _ ch.noneIff
  have h0 : (Sequential.mod fid true ch.mods).nParams = 0 := ch.nParams_eq.trans hp
  have hj : ((Net.skip id fid ch).mod.jacobian x val .weight).Raises := Post.raises <| (h.jacobian _ _).bind fun o ho =>
    Post.any fun _ => Post.any fun _ => Post.any fun _ => Post.need fun t ht => absurd (ho.2 h0) (by simp [ht])
  refine ⟨hj, fun v => ?_, fun M => ?_, fun M fd td db => ?_, hj⟩
  · exact Post.raises <| Post.any fun _ => Post.any fun _ => Post.any fun _ => (h.jvp _ _ _).bind fun o ho =>
      Post.any fun _ => Post.need fun t ht => absurd (ho.2 h0) (by simp [ht])
  · cases M with
    | none => exact hj
    | some M => exact Post.raises <| Post.any fun _ => Post.any fun _ => Post.any fun _ => (h.jmp _ _ _).bind fun o ho =>
        Post.any fun _ => Post.need fun t ht => absurd (ho.2 h0) (by simp [ht])
  · refine Post.raises <| Post.any fun _ => Post.any fun _ => Post.any fun _ => Post.any fun _ => Post.any fun _ => Post.any fun _ =>
      (h.jmjTp _ _ _ _ _ _).bind fun o ho => ?_
    cases td
    · exact Post.need fun t ht => absurd (ho.2 h0) (by simp [ht])
    · exact Post.any fun _ => Post.need fun t ht => absurd (ho.2 h0) (by simp [ht])

/-- `SkipConnection.jacobian(x, val)` with the right `val` never returns the Jacobian: whatever it
returns, in whatever state, has `n + (n + k)` rows instead of `n + k`.  (The output of the whole
module is handed to the inner network as if it were the inner output.) -/
theorem C36_jacobian_val (id fid : Nat) (ch : Chain (a :: r) n (c :: r) k p (l + 1)) {B : Nat} {x val : Tensor ℝ}
    (hx : x.shape = B :: a :: r) (hv : val.shape = B :: (a + c) :: r) (st : Store ℝ) (t : Tensor ℝ)
    (ht : Returns ((Net.skip id fid ch).mod.jacobian x (some val) .input) st (some t)) :
    (∃ b q, t.shape = [b, n + (n + k), q]) ∧ ∀ b q, t.shape ≠ [b, n + k, q] := by
  have hN := (Net.skip id fid ch).sizes
  have key := SkipConnection.jacobian_rows (id := id) (val := val) (s := (a + c) :: r) (B := B) hx
    (Sequential.jacobian_rows (id := fid) (b := true) ch.rows hv)
  have := key st _ _ (Prod.ext ht rfl) t rfl
  rw [hN.1, hN.2.1] at this
  obtain ⟨b, q, h⟩ := this
  refine ⟨⟨b, q, h⟩, fun b' q' h' => ?_⟩
  rw [h] at h'
  have := hN.2.2.1
  simp at h'
  omega

/-- The same wrt weight (networks without convolutions). -/
theorem C36_jacobian_val_weight (id fid : Nat) (ch : Chain (a :: r) n (c :: r) k p (l + 1)) (hf : ch.FwdI) {B : Nat} {x val : Tensor ℝ}
    (hx : x.shape = B :: a :: r) (hv : val.shape = B :: (a + c) :: r) (st : Store ℝ) (t : Tensor ℝ)
    (ht : Returns ((Net.skip id fid ch).mod.jacobian x (some val) .weight) st (some t)) :
    (∃ b q, t.shape = [b, n + (n + k), q]) ∧ ∀ b q, t.shape ≠ [b, n + k, q] := by
  have hN := (Net.skip id fid ch).sizes
  have key := SkipConnection.jacobian_rows (id := id) (val := val) (s := (a + c) :: r) (B := B) hx
    (Sequential.jacobian_rowsW (id := fid) (b := true) ch.rows (ch.rowsW hf) hv)
  have := key st _ _ (Prod.ext ht rfl) t rfl
  rw [hN.1, hN.2.1] at this
  obtain ⟨b, q, h⟩ := this
  refine ⟨⟨b, q, h⟩, fun b' q' h' => ?_⟩
  rw [h] at h'
  have := hN.2.2.1
  simp at h'
  omega

theorem fmap_state {α : Type} {id k : Nat} {s s' : Store α} {t : Tensor α} (h : Sequential.fmap id k s = (.ok t, s')) : s' = s := by
  simp only [Sequential.fmap] at h
  split at h
  · cases h
  · split at h <;> cases h
    rfl

/-- If the inner network ends in a Linear layer with at least 2 outputs, the call raises (wrt input),
while `jacobian(x)` returns the Jacobian (C01). -/
theorem C36_jacobian_val_raises (id fid lid wId : Nat) (bId : Option Nat) {i o : Nat} (hi : 0 < i) (ho : 2 ≤ o)
    (ch : Chain [a] n [i] i p l) {B : Nat} {x val : Tensor ℝ} {st : Store ℝ} (h : (st.param wId).shape = [o, i])
    (hv : val.shape = [B, a + o]) :
    ∃ e, ((Net.skip id fid (.snoc ch (.linear lid wId bId i o hi (by omega)))).mod.jacobian x (some val) .input st).1 = .error e := by
  have ha : size [a] = n := ch.sizes.1
  have hn : 0 < n := ch.sizes.2.2.1
  simp only [size, Nat.mul_one] at ha
  subst ha
  rcases hr : (Net.skip id fid (.snoc ch (.linear lid wId bId i o hi (by omega)))).mod.jacobian x (some val) .input st with ⟨r, st'⟩
  cases r with
  | error e => exact ⟨e, rfl⟩
  | ok r =>
    exfalso
    obtain ⟨j, s1, hj1, -⟩ := bind_inv hr
    obtain ⟨_, s2, h2, hj2⟩ := bind_inv hj1
    cases h2
    obtain ⟨_, s3, h3, hj3⟩ := bind_inv hj2
    cases h3
    obtain ⟨A, s4, h4, hj4⟩ := bind_inv hj3
    have hA : A.shape = [B, a + o, a + o] ∧ s4 = st := by
      simp only [Sequential.eyeFor, hv] at h4
      cases h4
      exact ⟨by simp [ofFn, size], rfl⟩
    obtain ⟨hA, rfl⟩ := hA
    obtain ⟨_, s5, hj5, -⟩ := bind_inv hj4
    have hms : (Chain.snoc ch (.linear lid wId bId i o hi (by omega))).mods = ch.mods ++ [Linear.mod lid wId bId i o] := by
      simp only [Chain.mods, Net.mod]
    rw [hms, List.length_append, List.length_singleton] at hj5
    obtain ⟨m, s6, h6, hj6⟩ := bind_inv hj5
    have hm : m = Linear.mod lid wId bId i o ∧ s6 = s4 := by
      simp only [Sequential.child, List.getElem?_append_right (Nat.le_refl _), Nat.sub_self, List.getElem?_cons_zero] at h6
      cases h6
      exact ⟨rfl, rfl⟩
    obtain ⟨rfl, rfl⟩ := hm
    obtain ⟨y, s7, h7, hj7⟩ := bind_inv hj6
    obtain ⟨v, s8, h8, hj8⟩ := bind_inv hj7
    have e7 := fmap_state h7
    have e8 := fmap_state h8
    subst e7 e8
    obtain ⟨z, s9, h9, hj9⟩ := bind_inv hj8
    have h9 : (some <$> einsum% "bij,jk->bik" [A, s8.param wId] : Res _) = .ok z := congrArg Prod.fst h9
    have : einsum% "bij,jk->bik" [A, s8.param wId] = .error .shape := by
      rw [einsum, if_pos (by simp [ranksOk, hA, h, operandsDiagOk, diagOk])]
      refine if_neg ?_
      simp [labelPairs, hA, h, labelDim]
      rw [if_neg (by omega : ¬ a + o = 1)]; omega
    rw [this] at h9
    cases h9

/-! ### instances -/

/-- `SkipConnection(Linear(2, 1, bias=False))` -/
noncomputable def skipNet1 : Net [2] 2 [3] 3 (0 + (1 * 2 + 0)) :=
  .skip 0 1 (a := 2) (c := 1) (r := []) (.snoc (.nil [2] 2 rfl (by norm_num)) (.linear 2 0 none 2 1 (by norm_num) (by norm_num)))

/-- a state holding it, after the call `forward(x)` -/
noncomputable def skipStore1 : Store ℝ where
  param _ := ⟨[1, 2], fun i => i⟩
  fmaps i := if i = 1 then some [⟨[1, 2], fun _ => 1⟩, ⟨[1, 1], fun _ => 1⟩] else none
  pidx _ := none
  hooks i := if i = 2 then [1] else []

theorem skipNet1_ok : skipNet1.Ok skipStore1 where
  nodup := by decide
  wired := by simp [skipNet1, Net.Wired, Chain.Wired, Net.mod, skipStore1, Linear.mod, PureLayer.toMod]

/-- With one output, broadcasting hides the error: the call returns, with 5 rows instead of 3. -/
theorem C36_jacobian_val_wrong : ∃ t, Returns (skipNet1.mod.jacobian ⟨[1, 2], fun _ => 1⟩ (some ⟨[1, 3], fun _ => 1⟩) .input) skipStore1 (some t) ∧
    t.shape = [1, 5, 2] := ⟨_, rfl, rfl⟩

/-- `SkipConnection(Tanh())` -/
noncomputable def skipNet0 : Net [2] 2 [4] 4 (0 + 0) :=
  .skip 0 1 (a := 2) (c := 2) (r := []) (.snoc (.nil [2] 2 rfl (by norm_num)) (.act .tanh 2 [2] 2 rfl (by norm_num)))

example (x v : Tensor ℝ) : (skipNet0.mod.jvp x none v .weight).Raises := (C36_no_params 0 1 _ rfl x none).2.1 v

/-- `SkipConnection(Tanh(), Linear(2, 3))` -/
example (x : Tensor ℝ) : ∃ e, ((Net.skip 0 1 (a := 2) (c := 3) (r := []) (.snoc (.snoc (.nil [2] 2 rfl (by norm_num))
    (.act .tanh 2 [2] 2 rfl (by norm_num))) (.linear 3 0 (some 1) 2 3 (by norm_num) (by norm_num)))).mod.jacobian x
      (some ⟨[1, 5], fun _ => 1⟩) .input ⟨fun _ => ⟨[3, 2], fun i => i⟩, fun _ => some [], fun _ => none, fun _ => []⟩).1 = .error e :=
  C36_jacobian_val_raises 0 1 3 0 (some 1) (by norm_num) (by norm_num) _ rfl rfl

end NNJ.Props
