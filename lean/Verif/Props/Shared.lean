import Verif.Spec.Example
import Verif.Proofs.NetFacts
import Verif.Proofs.Hooks
import Mathlib.Analysis.Calculus.FDeriv.Congr
import Mathlib.Analysis.Calculus.FDeriv.Const

/-!
# C38: a layer object used more than once
-/

namespace NNJ.Props
open NNJ Matrix Tensor

/-- Construct `Sequential(*ms)` and call `forward(x)`: if a layer object occurs `c` times in `ms`, each of its
outputs is appended `c` times to `feature_maps`.  (Layers that keep no state and had no hooks before.) -/
theorem C38_feature_maps (id : Nat) (ms : List (Mod ℝ)) (st : Store ℝ) (hs : ∀ m ∈ ms, m.Stateless) (hh : ∀ m ∈ ms, st.hooks m.id = [])
    (x : Tensor ℝ) (vs : List (Tensor ℝ)) (ho : Outputs st ms x vs) :
    ∃ N st1 s', Sequential.init id ms true st = (.ok N, st1) ∧ N.forward x st1 = (.ok ((x :: vs).getLast (by simp)), s') ∧
      s'.fmaps id = some (x :: (List.zipWith (fun m v => List.replicate ((ms.map Mod.id).count m.id) v) ms vs).flatten) := by
  obtain ⟨s', h1, h2, _⟩ := Sequential.forward_shared id ms st hs hh x vs ho
  exact ⟨_, _, s', rfl, h1, h2⟩

theorem Outputs.length {st : Store ℝ} : ∀ {ms : List (Mod ℝ)} {x : Tensor ℝ} {vs : List (Tensor ℝ)}, Outputs st ms x vs → vs.length = ms.length
  | [], _, _, h => by rw [show _ = [] from h]; rfl
  | m :: ms, _, _, ⟨v, ws, h, _, h'⟩ => by rw [h]; simp [Outputs.length h']

/-- So `feature_maps` has more than `len(ms) + 1` entries as soon as a layer object is repeated, and position
`k + 1` of the list is not the output of layer `k` for all `k`. -/
theorem C38_too_many (id : Nat) (ms : List (Mod ℝ)) (st : Store ℝ) (hs : ∀ m ∈ ms, m.Stateless) (hh : ∀ m ∈ ms, st.hooks m.id = [])
    (x : Tensor ℝ) (vs : List (Tensor ℝ)) (ho : Outputs st ms x vs) (hd : ¬ (ms.map Mod.id).Nodup) :
    ∃ N st1 s' l, Sequential.init id ms true st = (.ok N, st1) ∧ (N.forward x st1).2 = s' ∧ s'.fmaps id = some l ∧ ms.length + 1 < l.length := by
  obtain ⟨N, st1, s', h0, h1, h2⟩ := C38_feature_maps id ms st hs hh x vs ho
  refine ⟨N, st1, s', _, h0, by rw [h1], h2, ?_⟩
  have hlen := Outputs.length ho
  have key : ∀ (ns : List (Mod ℝ)) (ws : List (Tensor ℝ)) (cnt : Nat → Nat), ws.length = ns.length → (∀ m ∈ ns, 1 ≤ cnt m.id) →
      ns.length ≤ (List.zipWith (fun m v => List.replicate (cnt m.id) v) ns ws).flatten.length ∧
      ((∃ m ∈ ns, 2 ≤ cnt m.id) → ns.length < (List.zipWith (fun m v => List.replicate (cnt m.id) v) ns ws).flatten.length) := by
    intro ns
    induction ns with
    | nil => intro ws cnt _ _; exact ⟨by simp, fun ⟨m, hm, _⟩ => by simp at hm⟩
    | cons m ns ih =>
      intro ws cnt hw hc
      cases ws with
      | nil => simp at hw
      | cons w ws =>
        obtain ⟨i1, i2⟩ := ih ws cnt (by simpa using hw) fun m' hm' => hc m' (by simp [hm'])
        have h1 := hc m (by simp)
        refine ⟨by simp only [List.zipWith_cons_cons, List.flatten_cons, List.length_append, List.length_replicate, List.length_cons]; omega, ?_⟩
        rintro ⟨m', hm', h2⟩
        simp only [List.zipWith_cons_cons, List.flatten_cons, List.length_append, List.length_replicate, List.length_cons]
        rcases List.mem_cons.1 hm' with rfl | hm'
        · omega
        · have := i2 ⟨m', hm', h2⟩; omega
  have hdup : ∃ m ∈ ms, 2 ≤ (ms.map Mod.id).count m.id := by
    obtain ⟨j, hj⟩ := List.exists_duplicate_iff_not_nodup.2 hd
    have hj' := List.duplicate_iff_two_le_count.1 hj
    obtain ⟨m, hm, rfl⟩ := List.mem_map.1 hj.mem
    exact ⟨m, hm, hj'⟩
  have := (key ms vs (fun j => (ms.map Mod.id).count j) hlen fun m hm => List.one_le_count_iff.2 (List.mem_map.2 ⟨m, hm, rfl⟩)).2 hdup
  simp only [List.length_cons]
  omega

/-! ### A wrong vjp -/

/-- `L = Linear(1, 1, bias=False)` -/
noncomputable def sharedLinear : Mod ℝ := (Net.linear 1 0 none 1 1 (by norm_num) (by norm_num)).mod
/-- `R = ReLU()` -/
noncomputable def sharedRelu : Mod ℝ := (Net.act .relu 2 [1] 1 rfl (by norm_num)).mod
/-- the weight of `L` is -1 -/
noncomputable def sharedStart : Store ℝ where
  param _ := ⟨[1, 1], fun _ => -1⟩
  fmaps _ := none
  pidx _ := none
  hooks _ := []
/-- `Sequential(L, L, L, R)` -/
noncomputable def sharedNet : Mod ℝ := Sequential.mod 0 true [sharedLinear, sharedLinear, sharedLinear, sharedRelu]
/-- the state after its construction -/
noncomputable def sharedStore : Store ℝ := (Sequential.init 0 [sharedLinear, sharedLinear, sharedLinear, sharedRelu] true sharedStart).2

/-- a 1 x 1 tensor -/
noncomputable def scalar (a : ℝ) : Tensor ℝ := ⟨[1, 1], fun _ => a⟩

/-- a 1 x 1 tensor with entry `a` -/
def IsScalar (t : Tensor ℝ) (a : ℝ) : Prop := t.shape = [1, 1] ∧ t.data 0 = a

theorem sharedLinear_forward {x : Tensor ℝ} {a : ℝ} (hx : IsScalar x a) :
    ∃ t, (sharedLinear.forward x sharedStart).1 = .ok t ∧ IsScalar t (-a) := by
  obtain ⟨xs, xd⟩ := x
  obtain ⟨h1, h2⟩ := hx
  cases h1
  refine ⟨_, rfl, rfl, ?_⟩
  change 0 + xd 0 * -1 = -a
  rw [show xd 0 = a from h2]; ring

theorem sharedRelu_forward {x : Tensor ℝ} {a : ℝ} (hx : IsScalar x a) :
    ∃ t, (sharedRelu.forward x sharedStart).1 = .ok t ∧ IsScalar t (max 0 a) := by
  obtain ⟨xs, xd⟩ := x
  obtain ⟨h1, h2⟩ := hx
  cases h1
  refine ⟨_, rfl, rfl, ?_⟩
  change (if xd 0 < 0 then 0 else xd 0) = _
  rw [show xd 0 = a from h2]
  split <;> simp <;> linarith

theorem isScalar_iff {t : Tensor ℝ} {a : ℝ} : IsScalar t a ↔ IsVec t 1 1 fun _ _ => a := by
  constructor
  · rintro ⟨h1, h2⟩
    exact ⟨h1, fun b i => by simp [Tensor.get, ravel, h1, Fin.fin_one_eq_zero b, Fin.fin_one_eq_zero i, h2]⟩
  · rintro ⟨h1, h2⟩
    refine ⟨h1, ?_⟩
    have := h2 0 0
    simpa [Tensor.get, ravel, h1] using this

theorem sharedLinear_vjp {x u : Tensor ℝ} {a : ℝ} (v : Option (Tensor ℝ)) (hu : IsScalar u a) (st : Store ℝ) (hst : st.param = sharedStart.param) :
    ∃ t, sharedLinear.vjp x v u .input st = (.ok (some t), st) ∧ IsScalar t (-a) := by
  have h0 : sharedLinear.vjp x v u .input st = (Linear.vjp (st.param 0) none x v u .input, st) := rfl
  obtain ⟨t, ht, hT⟩ := ein_bj_jk (W := st.param 0) (m := 1) (n := 1) (w := fun _ _ => -1) (by rw [hst]; rfl)
    (fun i j => by rw [hst]; rfl) (isScalar_iff.1 hu)
  refine ⟨t, ?_, isScalar_iff.2 ?_⟩
  · rw [h0, Linear.vjp, ht]; rfl
  · exact ⟨hT.1, fun b i => by rw [hT.2]; simp [vecMul, dotProduct]⟩

theorem sharedRelu_vjp {x v u : Tensor ℝ} {a c : ℝ} (hv : IsScalar v c) (hu : IsScalar u a) (st : Store ℝ) :
    ∃ t, sharedRelu.vjp x (some v) u .input st = (.ok (some t), st) ∧ IsScalar t (a * if 0 < c then 1 else 0) := by
  have h0 : sharedRelu.vjp x (some v) u .input st =
      (AbstractDiagonal.vjp (Activation.jacobian (fun x => .ok (x.map Activation.reluF)) Activation.reluDiag) x (some v) u .input, st) := rfl
  have hd : v.dim 0 = .ok 1 := by simp [Tensor.dim, hv.1]
  have hdiag : IsBatch (Activation.reluDiag x v) 1 [1] 1 fun _ _ => if 0 < c then 1 else 0 :=
    IsBatch.map (t := v) (X := fun _ _ => c) (fun v => if 0 < v then 1 else 0)
      ⟨hv.1, fun b i => by simp [Fin.fin_one_eq_zero b, Fin.fin_one_eq_zero i, hv.2]⟩
  obtain ⟨d, hd1, hd2⟩ := reshapeInfer_batch hdiag rfl one_pos
  obtain ⟨t, ht, hT⟩ := ein_bi_bi (isScalar_iff.1 hu) hd2
  refine ⟨t, ?_, isScalar_iff.2 hT⟩
  rw [h0, AbstractDiagonal.vjp, Activation.jacobian]
  simp only [hd, hd1, ht, bind, Except.bind, pure, Except.pure, if_true]
  rfl

theorem shared_outputs {x : Tensor ℝ} {a : ℝ} (hx : IsScalar x a) :
    ∃ v1 v2 v3 v4, Outputs sharedStart [sharedLinear, sharedLinear, sharedLinear, sharedRelu] x [v1, v2, v3, v4] ∧
      IsScalar v1 (-a) ∧ IsScalar v2 a ∧ IsScalar v3 (-a) ∧ IsScalar v4 (max 0 (-a)) := by
  obtain ⟨v1, h1, s1⟩ := sharedLinear_forward hx
  obtain ⟨v2, h2, s2⟩ := sharedLinear_forward s1
  rw [neg_neg] at s2
  obtain ⟨v3, h3, s3⟩ := sharedLinear_forward s2
  obtain ⟨v4, h4, s4⟩ := sharedRelu_forward s3
  exact ⟨v1, v2, v3, v4, ⟨v1, _, rfl, h1, v2, _, rfl, h2, v3, _, rfl, h3, v4, _, rfl, h4, rfl⟩, s1, s2, s3, s4⟩

theorem sharedLinear_stateless : sharedLinear.Stateless := fun x s s' h => by
  show (Linear.forward (s.param 0) none x, s) = (Linear.forward (s'.param 0) none x, s)
  rw [h]
theorem sharedRelu_stateless : sharedRelu.Stateless := fun _ _ _ _ => rfl

theorem shared_stateless : ∀ m ∈ [sharedLinear, sharedLinear, sharedLinear, sharedRelu], m.Stateless := by
  simp only [List.mem_cons, List.not_mem_nil, or_false]
  rintro m (rfl | rfl | rfl | rfl)
  exacts [sharedLinear_stateless, sharedLinear_stateless, sharedLinear_stateless, sharedRelu_stateless]

/-- forward of the whole network, and the feature maps afterwards -/
theorem shared_forward {x : Tensor ℝ} {a : ℝ} (hx : IsScalar x a) :
    ∃ v1 v2 v3 v4 s', sharedNet.forward x sharedStore = (.ok v4, s') ∧
      s'.fmaps 0 = some [x, v1, v1, v1, v2, v2, v2, v3, v3, v3, v4] ∧ s'.param = sharedStart.param ∧
      IsScalar v1 (-a) ∧ IsScalar v2 a ∧ IsScalar v3 (-a) ∧ IsScalar v4 (max 0 (-a)) := by
  obtain ⟨v1, v2, v3, v4, ho, s1, s2, s3, s4⟩ := shared_outputs hx
  obtain ⟨s', h1, h2, h3⟩ := Sequential.forward_shared 0 _ sharedStart shared_stateless (fun _ _ => rfl) x _ ho
  exact ⟨v1, v2, v3, v4, s', h1, h2, h3, s1, s2, s3, s4⟩

/-- The network `Sequential(L, L, L, R)` computes `x ↦ relu(-x)`. -/
theorem shared_forwardMap (z : Fin 1 → ℝ) : forwardMap (k := 1) sharedNet sharedStore [1] z = fun _ => max 0 (-z 0) := by
  obtain ⟨v1, v2, v3, v4, s', h1, _, _, _, _, _, s4⟩ := shared_forward (x := ofSample [1] z) (a := z 0) ⟨rfl, by simp [ofSample]⟩
  funext i
  rw [forwardMap, h1]
  simpa [Fin.fin_one_eq_zero i] using s4.2

theorem shared_init : Sequential.init 0 [sharedLinear, sharedLinear, sharedLinear, sharedRelu] true sharedStart = (.ok sharedNet, sharedStore) := rfl

/-- There is a network, built of a Linear layer used three times and a ReLU, on which `vjp` is wrong: near the
input 1 the network is constant, its derivative is 0, and `vjp(1, None, 1, wrt="input")` returns -1. -/
theorem C38_vjp_wrong :
    Sequential.init 0 [sharedLinear, sharedLinear, sharedLinear, sharedRelu] true sharedStart = (.ok sharedNet, sharedStore) ∧
    HasFDerivAt (forwardMap (k := 1) sharedNet sharedStore [1]) (0 : (Fin 1 → ℝ) →L[ℝ] (Fin 1 → ℝ)) (fun _ => 1) ∧
    ∃ t, Returns (sharedNet.vjp (scalar 1) none (scalar 1) .input) sharedStore (some t) ∧ IsScalar t (-1) := by
  refine ⟨shared_init, ?_, ?_⟩
  · have : forwardMap (n := 1) (k := 1) sharedNet sharedStore [1] = fun z => fun _ => max 0 (-z 0) := funext shared_forwardMap
    rw [this]
    refine (hasFDerivAt_const (0 : Fin 1 → ℝ) _).congr_of_eventuallyEq ?_
    have hc : ContinuousAt (fun z : Fin 1 → ℝ => z 0) (fun _ => 1) := (continuous_apply 0).continuousAt
    filter_upwards [hc.eventually (lt_mem_nhds (show (0 : ℝ) < 1 by norm_num))] with z hz
    funext i
    simp only [Pi.zero_apply]
    exact max_eq_left (by linarith)
  · obtain ⟨v1, v2, v3, v4, s', h1, h2, h3, s1, s2, s3, s4⟩ := shared_forward (x := scalar 1) (a := 1) ⟨rfl, rfl⟩
    obtain ⟨u3, e3, q3⟩ := sharedRelu_vjp (x := v1) s2 (show IsScalar (scalar 1) 1 from ⟨rfl, rfl⟩) s'
    obtain ⟨u2, e2, q2⟩ := sharedLinear_vjp (x := v1) (some v1) q3 s' h3
    obtain ⟨u1, e1, q1⟩ := sharedLinear_vjp (x := v1) (some v1) q2 s' h3
    obtain ⟨u0, e0, q0⟩ := sharedLinear_vjp (x := scalar 1) (some v1) q1 s' h3
    refine ⟨u0, ?_, by simpa using q0⟩
    rw [Returns, sharedNet, Sequential.vjp_input_run h1]
    have hres : Sequential.vjpInput 0 [sharedLinear, sharedLinear, sharedLinear, sharedRelu] 4 (scalar 1) s' = (.ok u0, s') := by
      rw [Sequential.vjpInput_step h2 sharedRelu 3 _ _ _ _ rfl rfl rfl e3, Sequential.vjpInput_step h2 sharedLinear 2 _ _ _ _ rfl rfl rfl e2,
        Sequential.vjpInput_step h2 sharedLinear 1 _ _ _ _ rfl rfl rfl e1, Sequential.vjpInput_step h2 sharedLinear 0 _ _ _ _ rfl rfl rfl e0]
      rfl
    rw [List.length_cons, List.length_cons, List.length_cons, List.length_cons, List.length_nil, Prog.bind_ok hres]
    rfl

/-- the sharing also makes `get_weight` (each parameter once) shorter than `_n_params` (each use counted) -/
theorem C38_get_weight : ∃ w, Returns sharedNet.getWeight sharedStore w ∧ w.shape = [1] ∧ sharedNet.nParams = 3 :=
  ⟨_, rfl, rfl, rfl⟩

/-- `C38_too_many` applies to the network above: 11 feature maps instead of 5 -/
example : ∃ l, (sharedNet.forward (scalar 1) sharedStore).2.fmaps 0 = some l ∧ 4 + 1 < l.length := by
  obtain ⟨v1, v2, v3, v4, ho, _⟩ := shared_outputs (x := scalar 1) (a := 1) ⟨rfl, rfl⟩
  obtain ⟨N, st1, s', l, h0, h1, h2, h3⟩ := C38_too_many 0 _ sharedStart shared_stateless (fun _ _ => rfl) _ _ ho (by decide)
  obtain ⟨e1, e2⟩ := Prod.mk.inj (shared_init.symm.trans h0)
  cases e1
  rw [← e2] at h1
  exact ⟨l, by rw [h1, h2], h3⟩

end NNJ.Props
