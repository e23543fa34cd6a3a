import Verif.Spec.NaN
import Verif.Model.Linear
import Verif.Model.LogLikelihoods
import Verif.Model.AbstractJacobian
import Verif.Proofs.Ein

/-! NaN through the likelihoods and through `nnj.Linear`. -/

namespace NNJ
open Tensor NaNLaws

namespace NaN
set_option linter.unusedSectionVars false
variable {α : Type}

theorem ok_bind {β γ : Type} (a : β) (f : β → Res γ) : ((Except.ok a : Res β) >>= f) = f a := rfl
theorem lift_ok {β γ : Type} (a : β) (f : β → Prog α γ) (s : Store α) : ((liftM (Except.ok a : Res β) : Prog α β) >>= f) s = f a s := rfl
theorem run_ok {β γ : Type} {p : Prog α β} {a : β} {s s' : Store α} (h : p s = (.ok a, s')) (f : β → Prog α γ) : (p >>= f) s = f a s' := by
  show Prog.bind p f s = _
  simp only [Prog.bind, h]

section
variable [Add α] [Sub α] [Mul α] [Div α] [NaNLaws α]

theorem sum_nan [Zero α] {f : Nat → α} : ∀ {n i : Nat}, i < n → isNaN (f i) → isNaN (sumRange n f)
  | n + 1, i, h, hf => by
    rcases Nat.lt_succ_iff_lt_or_eq.1 h with h | rfl
    · exact add_l (sum_nan h hf)
    · exact add_r hf

theorem sum_inf [Zero α] {f : Nat → α} : ∀ {n i : Nat}, i < n → isInf (f i) → isInf (sumRange n f) ∨ isNaN (sumRange n f)
  | n + 1, i, h, hf => by
    rcases Nat.lt_succ_iff_lt_or_eq.1 h with h | rfl
    · rcases sum_inf h hf with h | h
      · exact inf_add h
      · exact .inr (add_l h)
    · exact add_inf hf

theorem div_inf {a b : α} (ha : isInf a) (hb : isInf b ∨ isNaN b) : isNaN (a / b) := by
  rcases hb with hb | hb
  · exact inf_div_inf ha hb
  · exact div_r hb

variable [Zero α] [One α] [Neg α] [NatCast α] [Trans α]

theorem binary_nan {v : α} (h : isInf (Trans.exp v)) : isNaN (Trans.exp v / (1 + Trans.exp v)) := div_inf h (add_inf h)

/-- the probabilities of `bernoulliProb` -/
theorem bernoulliProb_eq {val : Tensor α} {B c : Nat} (hv : val.shape = [B, c]) : ∃ p, LogLik.bernoulliProb val = .ok p ∧ p.shape = [B, c] ∧
    ∀ k, p.data k = Trans.exp (val.data k) / sumRange c fun j => Trans.exp (val.data ((k / c) * c + j)) := by
  simp only [LogLik.bernoulliProb, LogLik.lastSum, hv]
  refine ⟨⟨[B, c], fun k => Trans.exp (val.data k) / sumRange c fun j => Trans.exp (val.data ((k / c) * c + j))⟩, ?_, rfl, fun _ => rfl⟩
  simp [zipWithB, hv, Tensor.map]

theorem softmax_nan {f : Nat → α} {B c k : Nat} (hk : k < B * c) (h : isInf (Trans.exp (f k))) :
    isNaN (Trans.exp (f k) / sumRange c fun j => Trans.exp (f ((k / c) * c + j))) := by
  have hc : 0 < c := by
    rcases Nat.eq_zero_or_pos c with rfl | h
    · simp at hk
    · exact h
  refine div_inf h (sum_inf (i := k % c) (Nat.mod_lt _ hc) ?_)
  rwa [Nat.div_add_mod']

end

theorem reshape_b {r : Tensor α} {B : Nat} {s : List Nat} (h : r.shape = B :: s) (hB : 0 < B) : r.reshapeInfer [B] [] = .ok ⟨[B, size s], r.data⟩ := by
  simp [reshapeInfer, numel, h, Nat.ne_of_gt hB]

section
variable [Zero α] [One α] [Add α] [Sub α] [Neg α] [Mul α] [Div α] [NatCast α] [Trans α] [NaNLaws α]

/-- the residual which the likelihood passes to `vjp` -/
theorem binary_run {m : Mod α} {cfg : LogLik.Cfg} {x t val : Tensor α} {s s1 : Store α} {B : Nat} {sx sv : List Nat} (wrt : Wrt)
    (hx : x.shape = B :: sx) (hB : 0 < B) (hc : m.call x s = (.ok val, s1)) (hv : val.shape = B :: sv) (ht : t.shape = B :: sv) :
    ∃ r : Tensor α, r.shape = [B, size sv] ∧ (∀ i, isInf (Trans.exp (val.data i)) → isNaN (r.data i)) ∧
      LogLik.binaryGradient cfg m x (some t) wrt s =
        (do let g ← m.vjp x (some val) r wrt
            (LogLik.aggValue cfg.agg (PyVal.ofOption g) : Res _) : Prog α (PyVal α)) s1 := by
  have e1 : x.dim 0 = .ok B := by simp [Tensor.dim, hx]
  have e2 : LogLik.checkTarget val (some t) = .ok t := by simp [LogLik.checkTarget, assertR, hv, ht]
  have e3 : t.sub (LogLik.binaryProb val) = .ok ⟨B :: sv, fun k => t.data k - (LogLik.binaryProb val).data k⟩ := by
    simp [Tensor.sub, zipWithB, LogLik.binaryProb, Tensor.map, hv, ht]
  have e4 := reshape_b (r := ⟨B :: sv, fun k => t.data k - (LogLik.binaryProb val).data k⟩) rfl hB
  refine ⟨⟨[B, size sv], fun k => t.data k - (LogLik.binaryProb val).data k⟩, rfl, fun i hi => sub_r (binary_nan hi), ?_⟩
  unfold LogLik.binaryGradient
  rw [e1, lift_ok, run_ok hc, e2, lift_ok, e3, lift_ok, e4, lift_ok]

theorem bernoulli_run {m : Mod α} {cfg : LogLik.Cfg} {x t val : Tensor α} {s s1 : Store α} {B c : Nat} {sx : List Nat} (wrt : Wrt)
    (hx : x.shape = B :: sx) (hB : 0 < B) (hc : m.call x s = (.ok val, s1)) (hv : val.shape = [B, c]) (ht : t.shape = [B, c]) :
    ∃ r : Tensor α, r.shape = [B, c] ∧ (∀ i, i < B * c → isInf (Trans.exp (val.data i)) → isNaN (r.data i)) ∧
      LogLik.bernoulliGradient cfg m x (some t) wrt s =
        (do let g ← m.vjp x (some val) r wrt
            (LogLik.aggValue cfg.agg (PyVal.ofOption g) : Res _) : Prog α (PyVal α)) s1 := by
  obtain ⟨p, hp, hps, hpd⟩ := bernoulliProb_eq hv
  have e1 : x.dim 0 = .ok B := by simp [Tensor.dim, hx]
  have e2 : LogLik.checkTarget val (some t) = .ok t := by simp [LogLik.checkTarget, assertR, hv, ht]
  have e3 : t.sub p = .ok ⟨[B, c], fun k => t.data k - p.data k⟩ := by
    simp [Tensor.sub, zipWithB, hps, ht]
  have e4 : (⟨[B, c], fun k => t.data k - p.data k⟩ : Tensor α).reshapeInfer [B] [] = .ok ⟨[B, c], fun k => t.data k - p.data k⟩ := by
    rw [reshape_b rfl hB]
    simp
  refine ⟨⟨[B, c], fun k => t.data k - p.data k⟩, rfl, fun i h hi => sub_r (by rw [hpd]; exact softmax_nan h hi), ?_⟩
  unfold LogLik.bernoulliGradient
  rw [e1, lift_ok, run_ok hc, e2, lift_ok, hp, lift_ok, e3, lift_ok, e4, lift_ok]

theorem lik_run {lik : LogLik.Cfg → Mod α → Tensor α → Option (Tensor α) → Wrt → Prog α (PyVal α)}
    (hl : lik = LogLik.binaryGradient ∨ lik = LogLik.bernoulliGradient)
    {m : Mod α} {cfg : LogLik.Cfg} {x t val : Tensor α} {s s1 : Store α} {B c : Nat} {sx : List Nat} (wrt : Wrt)
    (hx : x.shape = B :: sx) (hB : 0 < B) (hc : m.call x s = (.ok val, s1)) (hv : val.shape = [B, c]) (ht : t.shape = [B, c]) :
    ∃ r : Tensor α, r.shape = [B, c] ∧ (∀ i, i < B * c → isInf (Trans.exp (val.data i)) → isNaN (r.data i)) ∧
      lik cfg m x (some t) wrt s =
        (do let g ← m.vjp x (some val) r wrt
            (LogLik.aggValue cfg.agg (PyVal.ofOption g) : Res _) : Prog α (PyVal α)) s1 := by
  rcases hl with rfl | rfl
  · obtain ⟨r, h1, h2, h3⟩ := binary_run (cfg := cfg) wrt hx hB hc hv ht
    exact ⟨r, by simpa using h1, fun k _ => h2 k, h3⟩
  · exact bernoulli_run wrt hx hB hc hv ht

theorem binary_ggn_run {m : Mod α} {cfg : LogLik.Cfg} {x val : Tensor α} {s s1 : Store α} {B : Nat} {sx sv : List Nat} (wrt : Wrt)
    (hx : x.shape = B :: sx) (hB : 0 < B) (hc : m.call x s = (.ok val, s1)) (hv : val.shape = B :: sv) :
    ∃ h : Tensor α, h.shape = [B, size sv] ∧ (∀ i, isInf (Trans.exp (val.data i)) → isNaN (h.data i)) ∧
      LogLik.binaryGgn cfg m x wrt s =
        (do let g ← m.jTmjp x (some val) (some h) wrt true (cfg.shape = .diag) (cfg.backprop = .approx)
            (LogLik.aggValue cfg.agg g : Res _) : Prog α (PyVal α)) s1 := by
  have e1 : x.dim 0 = .ok B := by simp [Tensor.dim, hx]
  have e4 := reshape_b (r := (LogLik.binaryProb val).map fun p => p * p - p) (B := B) (s := sv) hv hB
  refine ⟨⟨[B, size sv], ((LogLik.binaryProb val).map fun p => p * p - p).data⟩, rfl, fun i hi => sub_r (binary_nan hi), ?_⟩
  unfold LogLik.binaryGgn
  rw [e1, lift_ok, run_ok hc, e4, lift_ok]

theorem bernoulli_ggn_run {m : Mod α} {cfg : LogLik.Cfg} {x val : Tensor α} {s s1 : Store α} {B c : Nat} {sx : List Nat} (wrt : Wrt)
    (hx : x.shape = B :: sx) (hB : 0 < B) (hcpos : 0 < c) (hc : m.call x s = (.ok val, s1)) (hv : val.shape = [B, c]) :
    ∃ h : Tensor α, h.shape = [B, c, c] ∧ (∀ b i, b < B → i < c → isInf (Trans.exp (val.get [b, i])) → ∀ j, j < c →
      isNaN (h.get [b, i, j]) ∧ isNaN (h.get [b, j, i])) ∧
      LogLik.bernoulliGgn cfg m x wrt s =
        (do let g ← m.jTmjp x (some val) (some h) wrt false (cfg.shape = .diag) (cfg.backprop = .approx)
            (LogLik.aggValue cfg.agg g : Res _) : Prog α (PyVal α)) s1 := by
  obtain ⟨p, hp, hps, hpd⟩ := bernoulliProb_eq hv
  have e1 : x.dim 0 = .ok B := by simp [Tensor.dim, hx]
  have hn : val.numel0 = .ok c := by simp [Tensor.numel0, hv, Nat.ne_of_gt hB]
  obtain ⟨o, ho, hos, hog⟩ : ∃ o, einsum [['a', 'i'], ['a', 'j']] ['a', 'i', 'j'] [p, p] = .ok o ∧ o.shape = [B, c, c] ∧
      ∀ b i j, b < B → i < c → j < c → o.get [b, i, j] = p.get [b, i] * p.get [b, j] := by
    obtain ⟨r, hr, hs, hg⟩ := einsum_spec (dm [('a', B), ('i', c), ('j', c)]) (ins := [['a', 'i'], ['a', 'j']]) (out := ['a', 'i', 'j'])
      (ops := [p, p]) (by simp [ShapesFit, dm, hps]) (by simp)
    refine ⟨r, hr, by simpa [dm] using hs, fun b i j hb hi hj => ?_⟩
    rw [hg _ (by simp [dm, Valid, hb, hi, hj])]
    simp [sumLabels, contracted, envGet, prodList, plainProd]
  obtain ⟨d, hd, hds⟩ : ∃ d, p.diagEmbed = .ok d ∧ d.shape = [B, c, c] := by
    simp [Tensor.diagEmbed, hps]
  have hsub : o.sub d = .ok ⟨[B, c, c], fun k => o.data k - d.data k⟩ := by simp [Tensor.sub, zipWithB, hos, hds]
  have hh : LogLik.bernoulliHessian B val = .ok ⟨[B, c, c], fun k => o.data k - d.data k⟩ := by
    simp only [LogLik.bernoulliHessian, hv, List.getLast?_cons_cons, List.getLast?_singleton, pure_bind, hn, ok_bind, Nat.ne_of_gt hcpos, if_false, hp, hd]
    simp [ho, hsub, Tensor.reshape, numel]
  refine ⟨⟨[B, c, c], fun k => o.data k - d.data k⟩, rfl, fun b i hb hi hinf j hj => ?_, ?_⟩
  · have hlt : b * c + i < B * c := by nlinarith
    have hpi : isNaN (p.get [b, i]) := by
      rw [get2 hps, hpd]
      rw [get2 hv] at hinf
      exact softmax_nan hlt hinf
    refine ⟨sub_l (?_ : isNaN (o.data _)), sub_l (?_ : isNaN (o.data _))⟩
    · have := hog b i j hb hi hj
      rw [Tensor.get, hos] at this
      rw [this]; exact mul_l hpi
    · have := hog b j i hb hj hi
      rw [Tensor.get, hos] at this
      rw [this]; exact mul_r hpi
  · unfold LogLik.bernoulliGgn
    rw [e1, lift_ok, run_ok hc, hh, lift_ok]

/-! ### nnj.Linear -/

theorem linear_vjp_weight {W b x v : Tensor α} {B i o : Nat} (hB : 0 < B) (hx : x.shape = [B, i]) (hv : v.shape = [B, o]) (val : Option (Tensor α)) :
    ∃ g, Linear.vjp W (some b) x val v .weight = .ok (some g) ∧ g.shape = [B, o * i + o] ∧
      ∀ n c, n < B → c < o → isNaN (v.get [n, c]) → (∀ j < i, isNaN (g.get [n, c * i + j])) ∧ isNaN (g.get [n, o * i + c]) := by
  obtain ⟨p, hp, hps, hpg⟩ : ∃ p, einsum% "bi,bj->bij" [v, x] = .ok p ∧ p.shape = [B, o, i] ∧
      ∀ n c j, n < B → c < o → j < i → p.get [n, c, j] = v.get [n, c] * x.get [n, j] := by
    obtain ⟨r, hr, hs, hg⟩ := einsum_spec (dm [('b', B), ('i', o), ('j', i)]) (ins := [['b', 'i'], ['b', 'j']]) (out := ['b', 'i', 'j'])
      (ops := [v, x]) (by simp [ShapesFit, dm, hv, hx]) (by simp)
    refine ⟨r, hr, by simpa [dm] using hs, fun n c j hb hi hj => ?_⟩
    rw [hg _ (by simp [dm, Valid, hb, hi, hj])]
    simp [sumLabels, contracted, envGet, prodList, plainProd]
  have e : p.reshapeInfer [B] [] = .ok ⟨[B, o * i], p.data⟩ := by rw [reshape_b hps hB]; simp
  refine ⟨ofFn [B, o * i + o] fun idx => if idx.getD 1 0 < o * i then (⟨[B, o * i], p.data⟩ : Tensor α).get idx
    else v.get (idx.set 1 (idx.getD 1 0 - o * i)), ?_, rfl, fun n c hn hc hnan => ⟨fun j hj => ?_, ?_⟩⟩
  · have hd : x.dims2 = .ok (B, i) := by simp [Tensor.dims2, hx]
    simp only [Linear.vjp, hd, ok_bind, hp, e, cat2, hv, List.getElem?_cons_succ, List.getElem?_cons_zero, List.set, if_true]
    rfl
  · have h1 : c * i + j < o * i := by nlinarith
    rw [get_ofFn _ (by simp [Valid, hn]; omega)]
    simp only [List.getD_cons_succ, List.getD_cons_zero, h1, if_true]
    have := hpg n c j hn hc hj
    rw [get3 hps] at this
    rw [get2 rfl]
    show isNaN (p.data _)
    rw [this]
    exact mul_l hnan
  · rw [get_ofFn _ (by simp [Valid, hn]; omega)]
    simpa using hnan

theorem linear_vjp_input {W x v : Tensor α} {bias : Option (Tensor α)} {B i o : Nat} (hW : W.shape = [o, i]) (hv : v.shape = [B, o])
    (val : Option (Tensor α)) :
    ∃ g, Linear.vjp W bias x val v .input = .ok (some g) ∧ g.shape = [B, i] ∧
      ∀ n c, n < B → c < o → isNaN (v.get [n, c]) → ∀ j < i, isNaN (g.get [n, j]) := by
  obtain ⟨r, hr, hs, hg⟩ := einsum_spec (dm [('b', B), ('j', o), ('k', i)]) (ins := [['b', 'j'], ['j', 'k']]) (out := ['b', 'k'])
      (ops := [v, W]) (by simp [ShapesFit, dm, hv, hW]) (by simp)
  refine ⟨r, by simp only [Linear.vjp]; rw [hr]; rfl, by simpa [dm] using hs, fun n c hn hc hnan j hj => ?_⟩
  rw [hg _ (by simp [dm, Valid, hn, hj])]
  simp [sumLabels, contracted, envGet, prodList, plainProd, dm]
  exact sum_nan hc (mul_l hnan)

/-- sums and averages over the batch -/
theorem agg_nan {agg : LogLik.AggArg} (ha : agg = .sum ∨ agg = .average) {g : Tensor α} {B k : Nat} (hg : g.shape = [B, k]) :
    ∃ G, LogLik.aggValue agg (.tensor g) = .ok (.tensor G) ∧ G.shape = [k] ∧
      ∀ n c, n < B → c < k → isNaN (g.get [n, c]) → isNaN (G.get [c]) := by
  rcases ha with rfl | rfl
  · refine ⟨⟨[k], fun c => sumRange B fun n => g.data (n * size [k] + c)⟩, by simp [LogLik.aggValue, PyVal.toTensor, sum0, hg], rfl,
      fun n c hn hc h => ?_⟩
    rw [get2 hg] at h
    rw [get1 rfl]
    exact sum_nan hn (by simpa using h)
  · refine ⟨⟨[k], fun c => (sumRange B fun n => g.data (n * size [k] + c)) / ((B : Nat) : α)⟩,
      by simp [LogLik.aggValue, PyVal.toTensor, LogLik.mean0, sum0, hg, Tensor.dim, Tensor.map], rfl,
      fun n c hn hc h => ?_⟩
    rw [get2 hg] at h
    rw [get1 rfl]
    exact div_l (sum_nan hn (by simpa using h))

theorem linear_call {id w b i o : Nat} {x : Tensor α} {s : Store α} {B : Nat} (hW : (s.param w).shape = [o, i])
    (hb : (s.param b).shape = [o]) (hh : s.hooks id = []) (hx : x.shape = [B, i]) :
    (Linear.mod id w (some b) i o : Mod α).call x s = (.ok ⟨[B, o], fun k => (sumRange i fun j => x.data ((k / o) * i + j) *
      (s.param w).data ((k % o) * i + j)) + (s.param b).data (k % o)⟩, s) := by
  have e : ((Linear.mod id w (some b) i o : Mod α).forward x) s = (.ok ⟨[B, o], fun k => (sumRange i fun j => x.data ((k / o) * i + j) *
      (s.param w).data ((k % o) * i + j)) + (s.param b).data (k % o)⟩, s) := by
    simp [Linear.mod, PureLayer.toMod, Linear.layer, Linear.forward, Torch.linear, hx, hW, hb]
  unfold Mod.call
  rw [run_ok e]
  have e2 : (Prog.read fun s : Store α => s.hooks (Linear.mod id w (some b) i o : Mod α).id) s = (.ok [], s) := by
    show (Except.ok (s.hooks id), s) = _
    rw [hh]
  rw [run_ok e2]
  rfl

end
end NaN
end NNJ

namespace NNJ
namespace Fl
variable {M : ℝ}

theorem round_cases (r : ℝ) : (round r : Fl M) = fin r ∨ (round r : Fl M) = inf ∨ (round r : Fl M) = ninf := by
  unfold round
  split_ifs <;> simp

/-- the rules hold for `Fl M` -/
instance : NaNLaws (Fl M) where
  isNaN a := a = nan
  isInf a := a = inf ∨ a = ninf
  add_l := by rintro _ (_ | _ | _ | _) rfl <;> rfl
  add_r := by rintro (_ | _ | _ | _) _ rfl <;> rfl
  sub_l := by rintro _ (_ | _ | _ | _) rfl <;> rfl
  sub_r := by rintro (_ | _ | _ | _) _ rfl <;> rfl
  mul_l := by rintro _ (_ | _ | _ | _) rfl <;> rfl
  mul_r := by rintro (_ | _ | _ | _) _ rfl <;> rfl
  div_l := by rintro _ (_ | _ | _ | _) rfl <;> rfl
  div_r := by rintro (_ | _ | _ | _) _ rfl <;> rfl
  inf_add := by
    rintro _ (_ | _ | _ | _) (rfl | rfl)
    all_goals first
      | exact .inl (.inl rfl)
      | exact .inl (.inr rfl)
      | exact .inr rfl
  add_inf := by
    rintro (_ | _ | _ | _) _ (rfl | rfl)
    all_goals first
      | exact .inl (.inl rfl)
      | exact .inl (.inr rfl)
      | exact .inr rfl
  inf_div_inf := by rintro _ _ (rfl | rfl) (rfl | rfl) <;> rfl

theorem exp_fin (v : ℝ) : (Trans.exp (fin v) : Fl M) = round (Real.exp v) := rfl
theorem add_fin (a b : ℝ) : (fin a + fin b : Fl M) = round (a + b) := rfl
theorem div_fin {a b : ℝ} (h : b ≠ 0) : (fin a / fin b : Fl M) = round (a / b) := by
  show (if b = 0 then _ else _) = _
  rw [if_neg h]
theorem round_ok {r : ℝ} (h : |r| ≤ M) : (round r : Fl M) = fin r := by
  unfold round; rw [if_pos h]
theorem round_inf {r : ℝ} (hM : 0 ≤ M) (h : M < r) : (round r : Fl M) = inf := by
  unfold round
  rw [if_neg (by rw [abs_of_pos (by linarith)]; linarith), if_pos (by linarith)]

end Fl
end NNJ
