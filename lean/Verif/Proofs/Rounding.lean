import Verif.Spec.Rounding
import Verif.Proofs.NetFacts
import Verif.Proofs.Weights
import Verif.Proofs.NaNSeq
import Verif.Proofs.NoneNet

/-! Rounding errors of the forward pass, as perturbations of the weights. -/

namespace NNJ
open Tensor

/-- `f` is a product of at most `m` factors `1 + δ` with `|δ| ≤ u` (only the consequence is kept) -/
def NearOne (u : ℝ) (m : Nat) (f : ℝ) : Prop := |f - 1| ≤ (1 + u) ^ m - 1

theorem NearOne.one {u : ℝ} : NearOne u 0 1 := by simp [NearOne]

theorem NearOne.mul {u f δ : ℝ} {m : Nat} (h : NearOne u m f) (hd : |δ| ≤ u) : NearOne u (m + 1) (f * (1 + δ)) := by
  unfold NearOne at *
  have e : f * (1 + δ) - 1 = (f - 1) * (1 + δ) + δ := by ring
  have h1 : |1 + δ| ≤ 1 + u := (abs_add_le _ _).trans (by rw [abs_one]; linarith)
  calc |f * (1 + δ) - 1| ≤ |f - 1| * |1 + δ| + |δ| := by rw [e, ← abs_mul]; exact abs_add_le _ _
    _ ≤ ((1 + u) ^ m - 1) * (1 + u) + u := by
      have : |f - 1| * |1 + δ| ≤ ((1 + u) ^ m - 1) * (1 + u) :=
        mul_le_mul h h1 (abs_nonneg _) (le_trans (abs_nonneg _) h)
      linarith
    _ = (1 + u) ^ (m + 1) - 1 := by ring

theorem NearOne.mono {u f : ℝ} {m m' : Nat} (hu : 0 ≤ u) (h : NearOne u m f) (hm : m ≤ m') : NearOne u m' f := by
  unfold NearOne at *
  have := pow_le_pow_right₀ (show (1 : ℝ) ≤ 1 + u by linarith) hm
  linarith

theorem NearOne.delta {u δ : ℝ} (hd : |δ| ≤ u) : NearOne u 1 (1 + δ) := by
  simpa using NearOne.one.mul hd

theorem NearOne.dist {u f a : ℝ} {m : Nat} (h : NearOne u m f) : |a * f - a| ≤ ((1 + u) ^ m - 1) * |a| := by
  rw [show a * f - a = (f - 1) * a by ring, abs_mul]
  exact mul_le_mul_of_nonneg_right h (abs_nonneg _)

section
variable {β : Type} [Zero β] [Add β] [Mul β] [LT β] (R : Rounding β)

theorem Rounding.sum (f : Nat → β) : ∀ n, ∃ θ : Nat → ℝ, (∀ j, NearOne R.u n (θ j)) ∧ R.val (sumRange n f) = ∑ j : Fin n, R.val (f j) * θ j
  | 0 => ⟨fun _ => 1, fun _ => NearOne.one, by simp [sumRange, R.zero]⟩
  | n + 1 => by
    obtain ⟨θ, hθ, hs⟩ := Rounding.sum f n
    obtain ⟨δ, hd, ha⟩ := R.add (sumRange n f) (f n)
    refine ⟨fun j => if j < n then θ j * (1 + δ) else 1 + δ, fun j => ?_, ?_⟩
    · show NearOne _ _ (if j < n then θ j * (1 + δ) else 1 + δ)
      split
      · exact (hθ j).mul hd
      · exact (NearOne.delta hd).mono R.u_nonneg (by omega)
    · rw [sumRange, ha, hs, Fin.sum_univ_castSucc, add_mul, Finset.sum_mul]
      congr 1
      · refine Finset.sum_congr rfl fun j _ => ?_
        simp only [Fin.val_castSucc, if_pos j.2]
        ring
      · simp

theorem Rounding.dot (f g : Nat → β) (n : Nat) : ∃ θ : Nat → ℝ, (∀ j, NearOne R.u (n + 1) (θ j)) ∧
    R.val (sumRange n fun j => f j * g j) = ∑ j : Fin n, R.val (g j) * θ j * R.val (f j) := by
  obtain ⟨θ, hθ, hs⟩ := R.sum (fun j => f j * g j) n
  choose δ hd hm using fun j => R.mul (f j) (g j)
  refine ⟨fun j => θ j * (1 + δ j), fun j => (hθ j).mul (hd j), hs.trans ?_⟩
  refine Finset.sum_congr rfl fun j _ => ?_
  rw [hm]; ring
end

section
set_option linter.unusedSectionVars false
variable {β : Type} [Zero β] [One β] [Add β] [Mul β] [LT β] (R : Rounding β)

theorem map_batch {v : β → ℝ} {x : Tensor β} {B n : Nat} {s : List Nat} {X} (h : IsBatch (x.map v) B s n X) :
    x.shape = B :: s ∧ ∀ (b : Fin B) (i : Fin n), v (x.data (b * n + i)) = X b i := h

/-- `nnj.Linear` -/
theorem Rounding.linear {x y W : Tensor β} {bias : Option (Tensor β)} {B i o : Nat} {X : Fin B → Fin i → ℝ}
    (hx : IsBatch (x.map R.val) B [i] i X) (hW : W.shape = [o, i]) (hb : ∀ b ∈ bias, b.shape = [o]) (hy : Torch.linear x W bias = .ok y) :
    y.shape = [B, o] ∧ ∃ (θ : Fin B → Fin o → Fin i → ℝ) (η : Fin B → Fin o → ℝ),
      (∀ b k j, NearOne R.u (i + 2) (θ b k j)) ∧ (∀ b k, NearOne R.u (i + 2) (η b k)) ∧
      ∀ (b : Fin B) (k : Fin o), R.val (y.data (b * o + k)) =
        ∑ j : Fin i, R.val (W.data (k * i + j)) * θ b k j * X b j + (match bias with | some t => R.val (t.data k) * η b k | none => 0) := by
  obtain ⟨hxs, hxd⟩ := map_batch hx
  have hdiv : ∀ (b : Fin B) (k : Fin o), (↑b * o + ↑k) / o = b := fun b k => by
    rw [Nat.mul_comm, Nat.mul_add_div (Nat.lt_of_le_of_lt (Nat.zero_le _) k.2), Nat.div_eq_of_lt k.2, Nat.add_zero]
  have hmod : ∀ (b : Fin B) (k : Fin o), (↑b * o + ↑k) % o = k := fun b k => by rw [Nat.mul_comm, Nat.mul_add_mod, Nat.mod_eq_of_lt k.2]
  choose θ hθ hs using fun (b : Fin B) (k : Fin o) => R.dot (fun j => x.data (b * i + j)) (fun j => W.data (k * i + j)) i
  simp only [Torch.linear, hxs, hW, List.getLast?_cons_cons, List.getLast?_singleton, if_true] at hy
  have hdl : ([B, i] : List Nat).dropLast ++ [o] = [B, o] := rfl
  cases bias with
  | none =>
    simp only [hdl, Except.ok.injEq] at hy
    subst hy
    refine ⟨rfl, fun b k j => θ b k j, fun _ _ => 1, fun b k j => (hθ b k j).mono R.u_nonneg (by omega),
      fun _ _ => NearOne.one.mono R.u_nonneg (by omega), fun b k => ?_⟩
    simp only [hdiv, hmod, hs, hxd, add_zero]
  | some t =>
    have ht := hb t rfl
    simp only [ht, if_true, hdl, Except.ok.injEq] at hy
    subst hy
    choose δ hd ha using fun (b : Fin B) (k : Fin o) => R.add (sumRange i fun j => x.data (b * i + j) * W.data (k * i + j)) (t.data k)
    refine ⟨rfl, fun b k j => θ b k j * (1 + δ b k), fun b k => 1 + δ b k, fun b k j => (hθ b k j).mul (hd b k),
      fun b k => (NearOne.delta (hd b k)).mono R.u_nonneg (by omega), fun b k => ?_⟩
    simp only [hdiv, hmod, ha, hs, hxd, add_mul, Finset.sum_mul]
    congr 1
    exact Finset.sum_congr rfl fun j _ => by ring

end

section
set_option linter.unusedSectionVars false
variable {β : Type}

theorem map_ofFn {γ : Type} (v : β → γ) (s : List Nat) (f : List Nat → β) : (ofFn s f).map v = ofFn s fun i => v (f i) := rfl

theorem map_get {γ : Type} (v : β → γ) (t : Tensor β) (i : List Nat) : (t.map v).get i = v (t.get i) := rfl

/-- concatenation does not look at the numbers -/
theorem cat2_map {γ : Type} (v : β → γ) {a b r : Tensor β} {d : Nat} (h : cat2 a b d = .ok r) : cat2 (a.map v) (b.map v) d = .ok (r.map v) := by
  unfold cat2 at *
  simp only [show (a.map v).shape = a.shape from rfl, show (b.map v).shape = b.shape from rfl]
  split at h
  · rename_i m n e1 e2
    split at h
    · rename_i e3
      rw [if_pos e3]
      injection h with h
      subst h
      rw [map_ofFn]
      simp only [map_get, apply_ite v]
    · cases h
  · cases h

theorem reshape_map {γ : Type} (v : β → γ) {a r : Tensor β} {s : List Nat} (h : a.reshape s = .ok r) : (a.map v).reshape s = .ok (r.map v) := by
  unfold Tensor.reshape at *
  split at h
  · rename_i e
    rw [if_pos (show size s = (a.map v).numel from e)]
    injection h with h
    subst h
    rfl
  · cases h

theorem reshapeInfer_map {γ : Type} (v : β → γ) {a r : Tensor β} {s t : List Nat} (h : a.reshapeInfer s t = .ok r) :
    (a.map v).reshapeInfer s t = .ok (r.map v) := by
  unfold Tensor.reshapeInfer at *
  simp only [show (a.map v).numel = a.numel from rfl]
  dsimp only at h
  split at h
  · cases h
  · rename_i e
    rw [if_neg e]
    split at h
    · rename_i e2
      rw [if_pos e2]
      injection h with h
      subst h
      rfl
    · cases h

theorem reshapeOpen_map {γ : Type} (v : β → γ) {a r : Tensor β} {z : List Int} (h : a.reshapeOpen z = .ok r) :
    (a.map v).reshapeOpen z = .ok (r.map v) := by
  unfold Tensor.reshapeOpen at *
  dsimp only at *
  split at h
  · rename_i e
    exact reshape_map v h
  · rename_i d post e
    split at h
    · rename_i e2
      rw [if_pos e2]
      exact reshapeInfer_map v h
    · cases h

theorem run_snoc_inv {ms : List (Mod β)} {m : Mod β} : ∀ {x y : Tensor β} {s s' : Store β}, Sequential.run (ms ++ [m]) x s = (.ok y, s') →
    ∃ v s1, Sequential.run ms x s = (.ok v, s1) ∧ m.call v s1 = (.ok y, s') := by
  induction ms with
  | nil =>
    intro x y s s' h
    obtain ⟨v, s1, h1, h2⟩ := NaN.bind_inv h
    injection h2 with h2 h3
    injection h2 with h2
    subst h2 h3
    exact ⟨x, s, rfl, h1⟩
  | cons c ms ih =>
    intro x y s s' h
    obtain ⟨v, s1, h1, h2⟩ := NaN.bind_inv h
    obtain ⟨u, s2, h3, h4⟩ := ih h2
    exact ⟨u, s2, (Prog.bind_ok h1).trans h3, h4⟩

theorem runHooks_param {v : Tensor β} : ∀ {hs : List Nat} {s s' : Store β} {r : Unit}, Mod.runHooks v hs s = (.ok r, s') → s'.param = s.param
  | [], s, s', r, h => by
    injection h with h1 h2
    rw [h2]
  | i :: is, s, s', r, h => by
    obtain ⟨_, s1, h1, h2⟩ := NaN.bind_inv h
    rw [runHooks_param h2]
    unfold Mod.runHook at h1
    split at h1
    · injection h1 with _ h1
      rw [← h1]
    · cases h1

theorem call_inv {m : Mod β} {x y : Tensor β} {s s' : Store β} (h : m.call x s = (.ok y, s')) :
    ∃ s1, m.forward x s = (.ok y, s1) ∧ s'.param = s1.param := by
  obtain ⟨v, s1, h1, h2⟩ := NaN.bind_inv h
  obtain ⟨hs, s2, h3, h4⟩ := NaN.bind_inv h2
  obtain ⟨_, s3, h5, h6⟩ := NaN.bind_inv h4
  injection h3 with _ h3
  injection h6 with h6 h7
  injection h6 with h6
  subst h3 h6 h7
  exact ⟨s1, h1, runHooks_param h5⟩
end

section
set_option linter.unusedSectionVars false
variable {β : Type} [Zero β] [One β] [Add β] [Sub β] [Mul β] [Neg β] [Div β] [NatCast β] [LT β] [DecidableLT β] [Trans β] (R : Rounding β)

theorem Rounding.relu {x : Tensor β} {B n : Nat} {s : List Nat} {X : Fin B → Fin n → ℝ} (hx : IsBatch (x.map R.val) B s n X) :
    IsBatch ((x.map Activation.reluF).map R.val) B s n fun b i => Act.relu.fn (X b i) := by
  refine ⟨hx.1, fun b i => ?_⟩
  show R.val (Activation.reluF (x.data (b * n + i))) = _
  have e : R.val (x.data (b * n + i)) = X b i := hx.2 b i
  simp only [Activation.reluF, Act.fn, ← e]
  split_ifs with h
  · rw [R.lt_iff, R.zero] at h
    rw [R.zero, max_eq_right h.le]
  · rw [R.lt_iff, R.zero, not_lt] at h
    exact (max_eq_left h).symm

/-- what is to be shown: the parameters are left alone, and the result is that of exact arithmetic with slightly different weights for each sample -/
def StableAt (m : Nat) {n k p : Nat} (S : Sem n k p) (w : Fin p → ℝ) (s' : List Nat) {B : Nat} (X : Fin B → Fin n → ℝ) (y : Tensor β) : Prop :=
  ∃ w' : Fin B → Fin p → ℝ, (∀ b i, |w' b i - w i| ≤ ((1 + R.u) ^ (m + 2) - 1) * |w i|) ∧
    IsBatch (y.map R.val) B s' k fun b => S.f (w' b) (X b)

theorem StableAt.exact {m : Nat} {n k p : Nat} {S : Sem n k p} {w : Fin p → ℝ} {s' : List Nat} {B : Nat} {X : Fin B → Fin n → ℝ} {y : Tensor β}
    (h : IsBatch (y.map R.val) B s' k fun b => S.f w (X b)) : StableAt R m S w s' X y :=
  ⟨fun _ => w, fun b i => by
    rw [sub_self, abs_zero]
    have : (1 : ℝ) ≤ (1 + R.u) ^ (m + 2) := one_le_pow₀ (by linarith [R.u_nonneg])
    exact mul_nonneg (by linarith) (abs_nonneg _), h⟩

mutual
theorem Net.stable (q : ℝ → β) (fn : (ℝ → ℝ) → β → β) (m : Nat) (s0 : Store β) : {s s' : List Nat} → {n k p : Nat} → (N : Net s n s' k p) → N.ReluNet m →
    N.Shapes (s0.image R.val) → ∀ {sf sf' : Store β} {x y : Tensor β} {B : Nat} {X : Fin B → Fin n → ℝ}, 0 < B → sf.param = s0.param →
    IsBatch (x.map R.val) B s n X → (N.modIn q fn).forward x sf = (.ok y, sf') →
    sf'.param = s0.param ∧ StableAt R m N.sem (N.w (s0.image R.val)) s' X y
  | _, _, _, _, _, .linear id wId bId i o hi ho, hN, hS, sf, sf', x, y, B, X, hB, hp, hx, h => by
    obtain ⟨hW, hb⟩ := hS
    simp only [Net.modIn, Linear.mod, PureLayer.toMod] at h
    injection h with h h2
    subst h2
    refine ⟨hp, ?_⟩
    have h' : Torch.linear x (sf.param wId) (bId.map sf.param) = .ok y := h
    rw [hp] at h'
    obtain ⟨hy, θ, η, hθ, hη, hv⟩ := R.linear hx hW (by
      intro b hb'
      obtain ⟨c, hc, rfl⟩ := Option.map_eq_some_iff.1 hb'
      exact hb c hc) h'
    have hm : i + 2 ≤ m + 2 := Nat.add_le_add_right hN 2
    refine ⟨fun b => Fin.append (fun c => R.val ((s0.param wId).data c) * θ b (finProdFinEquiv.symm c).1 (finProdFinEquiv.symm c).2)
      fun c => match bId with
        | some t => if h : c.val < o then R.val ((s0.param t).data c) * η b ⟨c, h⟩ else 0
        | none => 0, fun b c => ?_, hy, fun b k => ?_⟩
    · refine Fin.addCases (fun c => ?_) (fun c => ?_) c
      · simp only [Net.w, linearW, Fin.append_left]
        exact ((hθ _ _ _).mono R.u_nonneg hm).dist
      · simp only [Net.w, linearW, Fin.append_right]
        cases bId with
        | none => exact c.elim0
        | some t =>
          have hc : c.val < o := c.2
          simp only [hc, dif_pos]
          exact ((hη _ _).mono R.u_nonneg hm).dist
    · refine (hv b k).trans ?_
      show _ = linearF bId i o _ (X b) k
      unfold linearF
      congr 1
      · refine Finset.sum_congr rfl fun j _ => ?_
        simp only [Fin.append_left, Equiv.symm_apply_apply]
        rw [finProdFinEquiv_apply_val, Nat.add_comm, Nat.mul_comm]
      · cases bId with
        | none => rw [dif_neg (by simp [biasLen])]; rfl
        | some t =>
          rw [dif_pos (show k.val < biasLen (some t) o from k.2)]
          simp only [Option.map_some, Fin.append_right, k.2, dif_pos]
  | _, _, _, _, _, .act a id s n hs hn, hN, hS, sf, sf', x, y, B, X, hB, hp, hx, h => by
    have ha : a = .relu := hN
    subst ha
    injection h with h h2
    injection h with h
    subst h2 h
    exact ⟨hp, .exact R (R.relu hx)⟩
  | _, _, _, _, _, .flatten id s n hs hn, hN, hS, sf, sf', x, y, B, X, hB, hp, hx, h => by
    injection h with h h2
    subst h2
    refine ⟨hp, .exact R ?_⟩
    obtain ⟨b, h1, h2⟩ := NaN.res_inv h
    obtain ⟨r, hr, hr2⟩ := (leafOk_flatten hs).forward hB hx
    have : Resh.flattenForward (x.map R.val) = .ok (y.map R.val) := by
      show (x.dim 0 >>= fun b => (x.map R.val).reshapeInfer [b] []) = _
      rw [h1]
      exact reshapeInfer_map _ h2
    rw [show (Resh.layer (Resh.flattenForward (α := ℝ))).forward (x.map R.val) = .ok (y.map R.val) from this] at hr
    injection hr with hr
    rw [hr]
    exact hr2
  | _, _, _, _, _, .reshape id s dims n hs hd hn z hz, hN, hS, sf, sf', x, y, B, X, hB, hp, hx, h => by
    injection h with h h2
    subst h2
    refine ⟨hp, .exact R ?_⟩
    obtain ⟨b, h1, h2⟩ := NaN.res_inv h
    obtain ⟨r, hr, hr2⟩ := (leafOk_reshape hs hd hn hz).forward hB hx
    have : Resh.reshapeForward z (x.map R.val) = .ok (y.map R.val) := by
      show (x.dim 0 >>= fun b => (x.map R.val).reshapeOpen (b :: z)) = _
      rw [h1]
      exact reshapeOpen_map _ h2
    rw [show (Resh.layer (Resh.reshapeForward (α := ℝ) z)).forward (x.map R.val) = .ok (y.map R.val) from this] at hr
    injection hr with hr
    rw [hr]
    exact hr2
  | _, _, _, _, _, .l2norm _ _ _ _ _ _ _, hN, _, _, _, _, _, _, _, _, _, _, _ => hN.elim
  | _, _, _, _, _, .conv _ _ _ _, hN, _, _, _, _, _, _, _, _, _, _, _ => hN.elim
  | _, _, _, _, _, .upsample _ _ _ _ _ _ _ _ _, hN, _, _, _, _, _, _, _, _, _, _, _ => hN.elim
  | _, _, _, _, _, .maxpool _ _, hN, _, _, _, _, _, _, _, _, _, _, _ => hN.elim
  | _, _, _, _, _, .seq id c, hN, hS, sf, sf', x, y, B, X, hB, hp, hx, h => by
    obtain ⟨_, s1, h1, h2⟩ := NaN.bind_inv (show Sequential.forward id true (c.modsIn q fn) x sf = _ from h)
    injection h1 with _ h1
    exact Chain.stable q fn m s0 c hN hS hB ((congrArg Store.param h1).symm.trans hp) hx h2
  | _, _, _, _, _, .skip id fid ch, hN, hS, sf, sf', x, y, B, X, hB, hp, hx, h => by
    obtain ⟨v, s1, h1, h2⟩ := NaN.bind_inv (show SkipConnection.forward (Sequential.mod fid true (ch.modsIn q fn)) x sf = _ from h)
    obtain ⟨h9, h3⟩ := NaN.lift_inv h2
    subst h3
    obtain ⟨s2, h4, h5⟩ := call_inv h1
    obtain ⟨_, s3, h6, h7⟩ := NaN.bind_inv (show Sequential.forward fid true (ch.modsIn q fn) x sf = _ from h4)
    injection h6 with _ h6
    obtain ⟨h8, w', hw, hv⟩ := Chain.stable q fn m s0 ch hN hS hB ((congrArg Store.param h6).symm.trans hp) hx h7
    refine ⟨h5.trans h8, w', hw, ?_⟩
    obtain ⟨hs, hs', _, _⟩ := ch.sizes
    obtain ⟨r, hr, hr2⟩ := cat2_batch hx hv hs hs'
    rw [cat2_map R.val h9] at hr
    injection hr with hr
    rw [hr]
    exact hr2
theorem Chain.stable (q : ℝ → β) (fn : (ℝ → ℝ) → β → β) (m : Nat) (s0 : Store β) : {s s' : List Nat} → {n k p l : Nat} → (c : Chain s n s' k p l) →
    c.ReluNet m → c.Shapes (s0.image R.val) → ∀ {sf sf' : Store β} {x y : Tensor β} {B : Nat} {X : Fin B → Fin n → ℝ}, 0 < B → sf.param = s0.param →
    IsBatch (x.map R.val) B s n X → Sequential.run (c.modsIn q fn) x sf = (.ok y, sf') →
    sf'.param = s0.param ∧ StableAt R m c.sem (c.w (s0.image R.val)) s' X y
  | _, _, _, _, _, _, .nil s n hs hn, hN, hS, sf, sf', x, y, B, X, hB, hp, hx, h => by
    injection h with h h2
    injection h with h
    subst h2 h
    exact ⟨hp, .exact R hx⟩
  | _, _, _, _, _, _, .snoc c N, hN, hS, sf, sf', x, y, B, X, hB, hp, hx, h => by
    obtain ⟨v, s1, h1, h2⟩ := run_snoc_inv h
    obtain ⟨s2, h3, h4⟩ := call_inv h2
    obtain ⟨hp1, w1, hw1, hv⟩ := Chain.stable q fn m s0 c hN.1 hS.1 hB hp hx h1
    obtain ⟨hp2, w2, hw2, hy⟩ := Net.stable q fn m s0 N hN.2 hS.2 hB hp1 hv h3
    refine ⟨h4.trans hp2, fun b => Fin.append (w1 b) (w2 b), fun b i => ?_, ?_⟩
    · refine Fin.addCases (fun i => ?_) (fun i => ?_) i
      · simpa only [Chain.w, Fin.append_left] using hw1 b i
      · simpa only [Chain.w, Fin.append_right] using hw2 b i
    · refine hy.congr fun b i => ?_
      simp only [Chain.sem, Sem.comp]
      congr 1
      · funext j; simp [wr]
      · congr 1
        funext j; simp [wl]
end
end
end NNJ
