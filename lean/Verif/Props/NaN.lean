import Verif.Proofs.NaNSeq
import Verif.Model.ReshapeFlatten
import Verif.Model.AbstractJacobian

/-!
# C76: overflow in the gradients of the classification likelihoods
-/

namespace NNJ.Props
open Tensor NaNLaws NaN

section
variable {α : Type} [Zero α] [One α] [Add α] [Sub α] [Neg α] [Mul α] [Div α] [NatCast α] [Trans α] [NaNLaws α]

/-- C76: `LogBinaryBernoulli.gradient`, with any model: wherever `exp` of an output overflows, the vector that is handed to `model.vjp` is NaN. -/
theorem C76_binary_gradient {m : Mod α} {cfg : LogLik.Cfg} {x t val : Tensor α} {s s1 : Store α} {B : Nat} {sx sv : List Nat} (wrt : Wrt)
    (hx : x.shape = B :: sx) (hB : 0 < B) (hc : m.call x s = (.ok val, s1)) (hv : val.shape = B :: sv) (ht : t.shape = B :: sv) :
    ∃ r : Tensor α, r.shape = [B, size sv] ∧ (∀ i, isInf (Trans.exp (val.data i)) → isNaN (r.data i)) ∧
      LogLik.binaryGradient cfg m x (some t) wrt s =
        (do let g ← m.vjp x (some val) r wrt
            (LogLik.aggValue cfg.agg (PyVal.ofOption g) : Res _) : Prog α (PyVal α)) s1 :=
  binary_run wrt hx hB hc hv ht

/-- C76: the same for `LogBernoulli.gradient` on batches of vectors of logits. -/
theorem C76_bernoulli_gradient {m : Mod α} {cfg : LogLik.Cfg} {x t val : Tensor α} {s s1 : Store α} {B c : Nat} {sx : List Nat} (wrt : Wrt)
    (hx : x.shape = B :: sx) (hB : 0 < B) (hc : m.call x s = (.ok val, s1)) (hv : val.shape = [B, c]) (ht : t.shape = [B, c]) :
    ∃ r : Tensor α, r.shape = [B, c] ∧ (∀ i, i < B * c → isInf (Trans.exp (val.data i)) → isNaN (r.data i)) ∧
      LogLik.bernoulliGradient cfg m x (some t) wrt s =
        (do let g ← m.vjp x (some val) r wrt
            (LogLik.aggValue cfg.agg (PyVal.ofOption g) : Res _) : Prog α (PyVal α)) s1 :=
  bernoulli_run wrt hx hB hc hv ht

/-- C76: the metric of `LogBinaryBernoulli.ggn` is NaN there too. -/
theorem C76_binary_ggn {m : Mod α} {cfg : LogLik.Cfg} {x val : Tensor α} {s s1 : Store α} {B : Nat} {sx sv : List Nat} (wrt : Wrt)
    (hx : x.shape = B :: sx) (hB : 0 < B) (hc : m.call x s = (.ok val, s1)) (hv : val.shape = B :: sv) :
    ∃ h : Tensor α, h.shape = [B, size sv] ∧ (∀ i, isInf (Trans.exp (val.data i)) → isNaN (h.data i)) ∧
      LogLik.binaryGgn cfg m x wrt s =
        (do let g ← m.jTmjp x (some val) (some h) wrt true (cfg.shape = .diag) (cfg.backprop = .approx)
            (LogLik.aggValue cfg.agg g : Res _) : Prog α (PyVal α)) s1 :=
  binary_ggn_run wrt hx hB hc hv

/-- C76: the metric of `LogBernoulli.ggn` has a row and a column of NaN for every overflowing logit. -/
theorem C76_bernoulli_ggn {m : Mod α} {cfg : LogLik.Cfg} {x val : Tensor α} {s s1 : Store α} {B c : Nat} {sx : List Nat} (wrt : Wrt)
    (hx : x.shape = B :: sx) (hB : 0 < B) (hcpos : 0 < c) (hc : m.call x s = (.ok val, s1)) (hv : val.shape = [B, c]) :
    ∃ h : Tensor α, h.shape = [B, c, c] ∧ (∀ b i, b < B → i < c → isInf (Trans.exp (val.get [b, i])) → ∀ j, j < c →
      isNaN (h.get [b, i, j]) ∧ isNaN (h.get [b, j, i])) ∧
      LogLik.bernoulliGgn cfg m x wrt s =
        (do let g ← m.jTmjp x (some val) (some h) wrt false (cfg.shape = .diag) (cfg.backprop = .approx)
            (LogLik.aggValue cfg.agg g : Res _) : Prog α (PyVal α)) s1 :=
  bernoulli_ggn_run wrt hx hB hcpos hc hv

/-- C76: logistic and softmax regression, `nnj.Linear` in either likelihood.  One overflowing logit of one sample is enough: the aggregated gradient wrt the
weight has only NaN for all weights of that class, the one wrt the input has only NaN. -/
theorem C76_regression_gradient {lik : LogLik.Cfg → Mod α → Tensor α → Option (Tensor α) → Wrt → Prog α (PyVal α)}
    (hl : lik = LogLik.binaryGradient ∨ lik = LogLik.bernoulliGradient) {cfg : LogLik.Cfg} (ha : cfg.agg = .sum ∨ cfg.agg = .average)
    {id w b i o B : Nat} {s : Store α} (hW : (s.param w).shape = [o, i]) (hb : (s.param b).shape = [o]) (hh : s.hooks id = [])
    {x t : Tensor α} (hB : 0 < B) (hx : x.shape = [B, i]) (ht : t.shape = [B, o]) :
    ∃ val G g, (Linear.mod id w (some b) i o : Mod α).call x s = (.ok val, s) ∧ val.shape = [B, o] ∧
      lik cfg (Linear.mod id w (some b) i o) x (some t) .weight s = (.ok (.tensor G), s) ∧ G.shape = [o * i + o] ∧
      lik cfg (Linear.mod id w (some b) i o) x (some t) .input s = (.ok (.tensor g), s) ∧ g.shape = [i] ∧
      ∀ n c, n < B → c < o → isInf (Trans.exp (val.get [n, c])) →
        (∀ j < i, isNaN (G.get [c * i + j])) ∧ isNaN (G.get [o * i + c]) ∧ ∀ j < i, isNaN (g.get [j]) := by
  obtain ⟨val, hcall, hv⟩ : ∃ val, (Linear.mod id w (some b) i o : Mod α).call x s = (.ok val, s) ∧ val.shape = [B, o] :=
    ⟨_, linear_call hW hb hh hx, rfl⟩
  have key := fun wrt => lik_run hl (cfg := cfg) wrt hx hB hcall hv ht
  have run : ∀ wrt r g, Linear.vjp (s.param w) (some (s.param b)) x (some val) r wrt = .ok (some g) →
      (do let g ← (Linear.mod id w (some b) i o : Mod α).vjp x (some val) r wrt
          (LogLik.aggValue cfg.agg (PyVal.ofOption g) : Res _) : Prog α (PyVal α)) s = (LogLik.aggValue cfg.agg (.tensor g), s) := by
    intro wrt r g h
    have e : (Linear.mod id w (some b) i o : Mod α).vjp x (some val) r wrt s = (.ok (some g), s) := by
      show (Linear.vjp (s.param w) (some (s.param b)) x (some val) r wrt, s) = _
      rw [h]
    rw [run_ok e]
    rfl
  obtain ⟨r, hr, hrn, hrun⟩ := key .weight
  obtain ⟨g0, hg0, hs0, hn0⟩ := linear_vjp_weight (W := s.param w) (b := s.param b) hB hx hr (some val)
  obtain ⟨G, hG, hGs, hGn⟩ := agg_nan ha hs0
  obtain ⟨r', hr', hrn', hrun'⟩ := key .input
  obtain ⟨g1, hg1, hs1, hn1⟩ := linear_vjp_input (x := x) (bias := some (s.param b)) hW hr' (some val)
  obtain ⟨g, hg, hgs, hgn⟩ := agg_nan ha hs1
  refine ⟨val, G, g, hcall, hv, by rw [hrun, run _ _ _ hg0, hG], hGs, by rw [hrun', run _ _ _ hg1, hg], hgs, fun n c hn hc hinf => ?_⟩
  rw [get2 hv] at hinf
  have hlt : n * o + c < B * o := by nlinarith
  have h1 := hn0 n c hn hc (by rw [get2 hr]; exact hrn _ hlt hinf)
  have h2 := hn1 n c hn hc (by rw [get2 hr']; exact hrn' _ hlt hinf)
  refine ⟨fun j hj => hGn n _ hn (by nlinarith) (h1.1 j hj), hGn n _ hn (by omega) h1.2, fun j hj => hgn n j hn hj (h2 j hj)⟩

/-- C76: a gradient step destroys the model: after `set_weight` with the sum of the old weights and any multiple of that gradient, the logit of that class is
NaN for every input. -/
theorem C76_step_destroys_the_class {lik : LogLik.Cfg → Mod α → Tensor α → Option (Tensor α) → Wrt → Prog α (PyVal α)}
    (hl : lik = LogLik.binaryGradient ∨ lik = LogLik.bernoulliGradient) {cfg : LogLik.Cfg} (ha : cfg.agg = .sum ∨ cfg.agg = .average)
    {id w b i o B : Nat} (hwb : w ≠ b) {s : Store α} (hW : (s.param w).shape = [o, i]) (hb : (s.param b).shape = [o]) (hh : s.hooks id = [])
    {x t val : Tensor α} (hB : 0 < B) (hx : x.shape = [B, i]) (ht : t.shape = [B, o])
    (hval : (Linear.mod id w (some b) i o : Mod α).call x s = (.ok val, s)) {n c : Nat} (hn : n < B) (hc : c < o)
    (hinf : isInf (Trans.exp (val.get [n, c]))) (η : α) :
    ∃ wt G s1, (Linear.mod id w (some b) i o : Mod α).getWeight s = (.ok wt, s) ∧ wt.shape = [o * i + o] ∧
      lik cfg (Linear.mod id w (some b) i o) x (some t) .weight s = (.ok (.tensor G), s) ∧ G.shape = [o * i + o] ∧
      (Linear.mod id w (some b) i o : Mod α).setWeight ⟨[o * i + o], fun k => wt.data k + η * G.data k⟩ s = (.ok (), s1) ∧
      ∀ B' (x' : Tensor α), x'.shape = [B', i] → ∃ val', (Linear.mod id w (some b) i o : Mod α).call x' s1 = (.ok val', s1) ∧ val'.shape = [B', o] ∧
        ∀ n' < B', isNaN (val'.get [n', c]) := by
  obtain ⟨val0, G, g, hcall, hv, hG, hGs, -, -, hnan⟩ := C76_regression_gradient hl ha hW hb hh hB hx ht
  obtain rfl : val0 = val := by
    rw [hcall] at hval
    injection hval with h1 h2
    injection h1
  obtain ⟨-, hbias, -⟩ := hnan n c hn hc hinf
  have hp : (Linear.mod id w (some b) i o : Mod α).parameters = [w, b] := by
    simp [Mod.parameters, dedupFirst, Linear.mod, PureLayer.toMod, hwb.symm]
  have hWn : (s.param w).numel = o * i := by simp [numel, hW]
  have hbn : (s.param b).numel = o := by simp [numel, hb]
  obtain ⟨wt, hwt, hwts⟩ : ∃ wt, (Linear.mod id w (some b) i o : Mod α).getWeight s = (.ok wt, s) ∧ wt.shape = [o * i + o] := by
    unfold Mod.getWeight
    rw [hp]
    simp [Tensor.cat, Tensor.cat2, hWn, hbn]
  let s1 : Store α := { s with param := fun j => if j = b then ⟨(s.param b).shape, fun k => wt.data (o * i + k) + η * G.data (o * i + k)⟩
    else if j = w then ⟨(s.param w).shape, fun k => wt.data k + η * G.data k⟩ else s.param j }
  refine ⟨wt, G, s1, hwt, hwts, hG, hGs, ?_, fun B' x' hx' => ⟨_, linear_call (by simp [s1, hwb, hW]) (by simp [s1, hb]) hh hx', rfl, fun n' hn' => ?_⟩⟩
  · simp only [Mod.setWeight, hp, setWeightLoop, hWn, if_neg hwb.symm, hbn]
    simp [numel, Prog.pure, s1]
  · rw [get2 rfl]
    have e1 : (n' * o + c) % o = c := by rw [Nat.mul_comm, Nat.mul_add_mod, Nat.mod_eq_of_lt hc]
    refine add_r ?_
    simp only [e1, s1, if_true]
    refine add_r (mul_r ?_)
    rwa [get1 hGs] at hbias

/-- C76: networks that end in `nnj.Linear`: wherever `exp` of a logit overflows for some sample, the aggregated gradient wrt the weight, if it is returned, is
NaN at the bias of that class, which is among the last entries. -/
theorem C76_network_gradient {lik : LogLik.Cfg → Mod α → Tensor α → Option (Tensor α) → Wrt → Prog α (PyVal α)}
    (hl : lik = LogLik.binaryGradient ∨ lik = LogLik.bernoulliGradient) {cfg : LogLik.Cfg} (ha : cfg.agg = .sum ∨ cfg.agg = .average)
    {q id w b i o B : Nat} {ah : Bool} {ms : List (Mod α)} {s s1 s2 : Store α} {sx : List Nat} {x t val : Tensor α} {v : PyVal α}
    (hx : x.shape = B :: sx) (hB : 0 < B) (ht : t.shape = [B, o])
    (hc : (Sequential.mod q ah (ms ++ [Linear.mod id w (some b) i o])).call x s = (.ok val, s1)) (hv : val.shape = [B, o])
    (hg : lik cfg (Sequential.mod q ah (ms ++ [Linear.mod id w (some b) i o])) x (some t) .weight s = (.ok v, s2)) :
    ∃ G P, v = .tensor G ∧ G.shape = [P + o] ∧ ∀ n c, n < B → c < o → isInf (Trans.exp (val.get [n, c])) → isNaN (G.get [P + c]) := by
  obtain ⟨r, hr, hrn, hrun⟩ := lik_run hl (cfg := cfg) .weight hx hB hc hv ht
  rw [hrun] at hg
  obtain ⟨g, s3, h1, h2⟩ := bind_inv hg
  obtain ⟨h2, -⟩ := lift_inv h2
  cases g with
  | none => rcases ha with ha | ha <;> rw [ha] at h2 <;> cases h2
  | some g =>
    obtain ⟨P, hs, hgt⟩ := seq_tail hr h1
    obtain ⟨G, hG, hGs, hGn⟩ := agg_nan ha hs
    have : v = .tensor G := by
      have h3 := hG.symm.trans h2
      injection h3 with h3
      exact h3.symm
    refine ⟨G, P, this, hGs, fun n c hn hc hinf => hGn n _ hn (by omega) ?_⟩
    rw [hgt n c hn hc, get2 hr]
    rw [get2 hv] at hinf
    exact hrn _ (by nlinarith) hinf

/-- C76: after one gradient step, whatever the step size, every output that such a network returns is NaN for that class (the entries at the last index `c`),
for every input. -/
theorem C76_step_destroys_the_network {lik : LogLik.Cfg → Mod α → Tensor α → Option (Tensor α) → Wrt → Prog α (PyVal α)}
    (hl : lik = LogLik.binaryGradient ∨ lik = LogLik.bernoulliGradient) {cfg : LogLik.Cfg} (ha : cfg.agg = .sum ∨ cfg.agg = .average)
    {q id w b i o B : Nat} {ah : Bool} {ms : List (Mod α)} {s s1 s2 s3 : Store α} {sx : List Nat} {x t val G wt : Tensor α}
    (hms : ∀ m ∈ ms, ∀ x s, (m.call x s).2.param = s.param) (hx : x.shape = B :: sx) (hB : 0 < B) (ht : t.shape = [B, o])
    (hc : (Sequential.mod q ah (ms ++ [Linear.mod id w (some b) i o])).call x s = (.ok val, s1)) (hv : val.shape = [B, o])
    {n c : Nat} (hn : n < B) (hco : c < o) (hinf : isInf (Trans.exp (val.get [n, c])))
    (hg : lik cfg (Sequential.mod q ah (ms ++ [Linear.mod id w (some b) i o])) x (some t) .weight s = (.ok (.tensor G), s2))
    {l : List Nat} (hp : (Sequential.mod q ah (ms ++ [Linear.mod id w (some b) i o])).parameters = l ++ [b]) (hbl : b ∉ l)
    (hb : (s2.param b).shape = [o]) (hw : (Sequential.mod q ah (ms ++ [Linear.mod id w (some b) i o])).getWeight s2 = (.ok wt, s2))
    (hwG : wt.shape = G.shape) (η : α)
    (hset : (Sequential.mod q ah (ms ++ [Linear.mod id w (some b) i o])).setWeight ⟨G.shape, fun k => wt.data k + η * G.data k⟩ s2 = (.ok (), s3))
    {x' y : Tensor α} {s4 : Store α} (hy : (Sequential.mod q ah (ms ++ [Linear.mod id w (some b) i o])).call x' s3 = (.ok y, s4)) :
    y.shape.getLast? = some o ∧ ∀ k, k % o = c → isNaN (y.data k) := by
  obtain ⟨G', P, hG', hGs, hGn⟩ := C76_network_gradient hl ha hx hB ht hc hv hg
  injection hG' with hG'
  subst hG'
  have hnan := hGn n c hn hco hinf
  have htot := getWeight_total hw
  rw [hwG, hGs, hp] at htot
  have hP : total s2 l = P := by
    simp only [total, List.map_append, List.sum_append, List.map_cons, List.map_nil, List.sum_cons, List.sum_nil, numel, hb] at htot
    simp only [List.cons.injEq, and_true] at htot
    simp [total, numel] at htot ⊢
    omega
  unfold Mod.setWeight at hset
  rw [hp] at hset
  have hpar := setLoop_last hbl hset
  unfold Mod.call at hy
  obtain ⟨y', s5, h1, h2⟩ := bind_inv hy
  obtain ⟨_, s6, -, h2⟩ := bind_inv h2
  obtain ⟨_, s7, -, h2⟩ := bind_inv h2
  injection h2 with h2 _
  injection h2 with h2
  subst h2
  have h1' : ∃ s8, Sequential.run (ms ++ [Linear.mod id w (some b) i o]) x' s8 = (.ok y', s5) ∧ s8.param = s3.param := by
    change Sequential.forward q ah _ x' s3 = _ at h1
    unfold Sequential.forward at h1
    cases ah with
    | false => exact ⟨s3, h1, rfl⟩
    | true => exact ⟨_, h1, rfl⟩
  obtain ⟨s8, h8, hs8⟩ := h1'
  obtain ⟨z, s9, s10, h9, hs9⟩ := run_last hms h8
  change (Linear.forward (s9.param w) (some (s9.param b)) z, s9) = _ at h9
  injection h9 with h9 _
  have hb9 : s9.param b = s3.param b := by rw [hs9, hs8]
  rw [hb9] at h9
  refine linear_forward_nan (by rw [hpar]; exact hb) ?_ h9
  rw [hpar]
  show isNaN (wt.data _ + η * G.data _)
  refine add_r (mul_r ?_)
  rw [get1 hGs] at hnan
  rw [hP, Nat.zero_add]
  exact hnan

end

/-- a model with one weight 5 and bias 0, in numbers up to 5 -/
noncomputable def nanStore : Store (Fl 5) where
  param
    | 0 => ⟨[1, 1], fun _ => .fin 5⟩
    | _ => ⟨[1], fun _ => .fin 0⟩
  fmaps _ := none
  pidx _ := none
  hooks _ := []

/-- its logit at the input 1 is 5, and exp 5 > 5 overflows -/
theorem nanStore_logit : ∃ val : Tensor (Fl 5), (Linear.mod 7 0 (some 1) 1 1 : Mod (Fl 5)).call ⟨[1, 1], fun _ => .fin 1⟩ nanStore = (.ok val, nanStore) ∧
    val.get [0, 0] = .fin 5 ∧ isInf (Trans.exp (val.get [0, 0])) := by
  have e : (((0 : Fl 5) + .fin 1 * .fin 5) + .fin 0 : Fl 5) = .fin 5 := by
    have h1 : (.fin 1 * .fin 5 : Fl 5) = .fin 5 := by
      show Fl.round (1 * 5) = _
      rw [Fl.round_ok (by norm_num)]; norm_num
    have h2 : ((0 : Fl 5) + .fin 5 : Fl 5) = .fin 5 := by
      show Fl.round (0 + 5) = _
      rw [Fl.round_ok (by norm_num)]; norm_num
    rw [h1, h2, Fl.add_fin, Fl.round_ok (by norm_num)]; norm_num
  refine ⟨_, linear_call (B := 1) rfl rfl rfl rfl, e, ?_⟩
  have : (5 : ℝ) < Real.exp 5 := by linarith [Real.add_one_le_exp (5 : ℝ)]
  refine Or.inl ?_
  show Trans.exp (((0 : Fl 5) + .fin 1 * .fin 5) + .fin 0 : Fl 5) = _
  rw [e, Fl.exp_fin, Fl.round_inf (by norm_num) this]

/-- the hypotheses are met: one gradient step and this model answers NaN to everything -/
example : ∃ s1 : Store (Fl 5), ∀ x' : Tensor (Fl 5), x'.shape = [1, 1] →
    ∃ val', (Linear.mod 7 0 (some 1) 1 1 : Mod (Fl 5)).call x' s1 = (.ok val', s1) ∧ isNaN (val'.get [0, 0]) := by
  obtain ⟨val, h1, -, h2⟩ := nanStore_logit
  obtain ⟨_, _, s1, -, -, -, -, -, h⟩ := C76_step_destroys_the_class (.inl rfl) (cfg := ⟨.sum, .diag, .exact⟩) (.inl rfl) (by decide) (s := nanStore) (B := 1)
    rfl rfl rfl (t := ⟨[1, 1], fun _ => .fin 1⟩) (by decide) rfl rfl h1 (n := 0) (c := 0) (by decide) (by decide) h2 (.fin 1)
  exact ⟨s1, fun x' hx' => let ⟨v, a, _, c⟩ := h 1 x' hx'; ⟨v, a, c 0 (by decide)⟩⟩

/-- the same parameters, with the hooks of object 9 on objects 7 and 8 -/
noncomputable def nanStore2 : Store (Fl 5) := { nanStore with hooks := fun j => if j = 7 ∨ j = 8 then [9] else [] }

/-- `Sequential(Flatten(), Linear(1, 1))` as object 9, with these parameters -/
noncomputable def nanNet : Mod (Fl 5) := Sequential.mod 9 true ([Resh.flatten 8] ++ [Linear.mod 7 0 (some 1) 1 1])

theorem nanNet_call (s : Store (Fl 5)) (hp : s.param = nanStore2.param) (hh : s.hooks = nanStore2.hooks) : ∃ y s1,
    nanNet.call ⟨[1, 1], fun _ => .fin 1⟩ s = (.ok y, s1) ∧ y.shape = [1, 1] ∧
    y.get [0, 0] = ((0 : Fl 5) + .fin 1 * .fin 5) + .fin 0 ∧ s1.param = s.param := by
  obtain ⟨p, f, i, h⟩ := s
  dsimp at hp hh
  subst hp hh
  exact ⟨_, _, rfl, rfl, rfl, rfl⟩

theorem nanNet_gradient : ∃ G s2, LogLik.bernoulliGradient ⟨.average, .diag, .exact⟩ nanNet
      ⟨[1, 1], fun _ => .fin 1⟩ (some ⟨[1, 1], fun _ => .fin 0⟩) .weight nanStore2 = (.ok (.tensor G), s2) ∧ G.shape = [2] ∧ s2.param = nanStore2.param ∧
      s2.hooks = nanStore2.hooks := by
  refine ⟨_, _, rfl, rfl, rfl, rfl⟩

/-- the hypotheses of the two theorems about networks are met, too: one step of size 1, and the network answers NaN to everything -/
example : ∃ G wt s2 s3, LogLik.bernoulliGradient ⟨.average, .diag, .exact⟩ nanNet
      ⟨[1, 1], fun _ => .fin 1⟩ (some ⟨[1, 1], fun _ => .fin 0⟩) .weight nanStore2 = (.ok (.tensor G), s2) ∧
    nanNet.getWeight s2 = (.ok wt, s2) ∧ nanNet.setWeight ⟨G.shape, fun k => wt.data k + .fin 1 * G.data k⟩ s2 = (.ok (), s3) ∧
    ∀ x' y s4, nanNet.call x' s3 = (.ok y, s4) → ∀ k, isNaN (y.data k) := by
  obtain ⟨val, s1, hc, hv, hval, -⟩ := nanNet_call nanStore2 rfl rfl
  obtain ⟨G, s2, hG, hGs, hp2, -⟩ := nanNet_gradient
  obtain ⟨wt, hw, hws⟩ : ∃ wt, nanNet.getWeight s2 = (.ok wt, s2) ∧ wt.shape = [2] := by
    obtain ⟨p, f, i, h⟩ := s2
    dsimp at hp2
    subst hp2
    exact ⟨_, rfl, rfl⟩
  obtain ⟨s3, hset⟩ : ∃ s3, nanNet.setWeight ⟨G.shape, fun k => wt.data k + .fin 1 * G.data k⟩ s2 = (.ok (), s3) := by
    rw [hGs]
    obtain ⟨p, f, i, h⟩ := s2
    dsimp at hp2
    subst hp2
    exact ⟨_, rfl⟩
  have hinf : isInf (Trans.exp (val.get [0, 0])) := by
    obtain ⟨v, h0, hv0, h⟩ := nanStore_logit
    have e := (linear_call (id := 7) (w := 0) (b := 1) (i := 1) (o := 1) (B := 1) (x := ⟨[1, 1], fun _ => .fin 1⟩) (s := nanStore) rfl rfl rfl rfl)
    rw [h0] at e
    injection e with e _
    injection e with e
    rw [hval]
    rw [e] at h
    exact h
  refine ⟨G, wt, s2, s3, hG, hw, hset, fun x' y s4 hy k => ?_⟩
  refine (C76_step_destroys_the_network (.inr rfl) (.inr rfl) (B := 1) ?_ rfl (by decide) rfl hc hv (n := 0) (c := 0) (by decide) (by decide) hinf hG
    (l := [0]) rfl (by decide) (by rw [hp2]; rfl) hw (hws.trans hGs.symm) (.fin 1) hset hy).2 k (Nat.mod_one k)
  intro m hm x s
  simp only [List.mem_singleton] at hm
  subst hm
  unfold Mod.call
  show (Prog.bind _ _ s).2.param = _
  unfold Prog.bind
  cases h : (Resh.flatten 8 : Mod (Fl 5)).forward x s with
  | mk r s' =>
    have hs : s' = s := by
      change (_, s) = _ at h
      injection h with _ h
      exact h.symm
    subst hs
    cases r with
    | error e => rfl
    | ok v =>
      show (Prog.bind (Mod.runHooks v _) _ s').2.param = _
      have := hooks_param (v := v) (s'.hooks 8) s'
      unfold Prog.bind
      cases h2 : Mod.runHooks v (s'.hooks (Resh.flatten 8 : Mod (Fl 5)).id) s' with
      | mk r2 s2 =>
        have h3 : s2.param = s'.param := by
          rw [← this]
          change Mod.runHooks v (s'.hooks 8) s' = _ at h2
          rw [h2]
        cases r2 <;> exact h3

/-- C76: the formula of `nnj.Sigmoid` has no such limit.  In numbers up to `M ≥ 2` without rounding errors, `exp(v) / (1 + exp(v))` of the likelihoods is NaN
for every `v` with `exp v > M`, while `1 / (1 + exp(-v))` is the exact probability for every `v ≥ 0`; and both are exact while `exp v + 1 ≤ M`. -/
theorem C76_sigmoid_does_not_overflow {M : ℝ} (hM : 2 ≤ M) (v : ℝ) (hv : 0 ≤ v) :
    (M < Real.exp v → (LogLik.binaryProb ⟨[1, 1], fun _ => (Fl.fin v : Fl M)⟩).get [0, 0] = Fl.nan) ∧
    (Real.exp v + 1 ≤ M → (LogLik.binaryProb ⟨[1, 1], fun _ => (Fl.fin v : Fl M)⟩).get [0, 0] = Fl.fin (Real.exp v / (1 + Real.exp v))) ∧
    Activation.sigmoidF (Fl.fin v : Fl M) = Fl.fin (Real.exp v / (1 + Real.exp v)) := by
  have hpos := Real.exp_pos v
  refine ⟨fun h => ?_, fun h => ?_, ?_⟩
  · show (Trans.exp (Fl.fin v) / (1 + Trans.exp (Fl.fin v)) : Fl M) = _
    rw [Fl.exp_fin, Fl.round_inf (by linarith) h]
    rfl
  · show (Trans.exp (Fl.fin v) / (Fl.fin 1 + Trans.exp (Fl.fin v)) : Fl M) = _
    have hle : Real.exp v / (1 + Real.exp v) ≤ 1 := by rw [div_le_one (by linarith)]; linarith
    rw [Fl.exp_fin, Fl.round_ok (by rw [abs_of_pos hpos]; linarith), Fl.add_fin, Fl.round_ok (by rw [abs_of_pos (by linarith)]; linarith),
      Fl.div_fin (by linarith), Fl.round_ok (by rw [abs_of_pos (by positivity)]; linarith)]
  · show (Fl.fin 1 / (Fl.fin 1 + Trans.exp (Fl.fin (-v))) : Fl M) = _
    have hp' := Real.exp_pos (-v)
    have hle : Real.exp (-v) ≤ 1 := by rw [Real.exp_le_one_iff]; linarith
    have hle2 : 1 / (1 + Real.exp (-v)) ≤ 1 := by rw [div_le_one (by linarith)]; linarith
    rw [Fl.exp_fin, Fl.round_ok (by rw [abs_of_pos hp']; linarith), Fl.add_fin, Fl.round_ok (by rw [abs_of_pos (by linarith)]; linarith),
      Fl.div_fin (by linarith), Fl.round_ok (by rw [abs_of_pos (by positivity)]; linarith)]
    congr 1
    rw [Real.exp_neg]
    field_simp
    ring

end NNJ.Props
