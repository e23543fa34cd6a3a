import Verif.Proofs.DtypeBad
import Verif.Proofs.DtypeRet

/-!
# C79: single and double precision

`Env.dflt` is torch's default dtype, `single` unless the program changes it.
-/

namespace NNJ.Props
open NNJ.Dt

/-- In a network all of whose layers are safe for the dtype `d`, with parameters, inputs, vectors
and matrices of dtype `d`: `forward` returns dtype `d`, and no method raises a dtype error or
returns a tensor of another dtype or with digits lost.  (Without a matrix, a Conv2d on its own is
excepted, see `C79_conv_jacobian`.) -/
theorem C79_dtype_kept (n : DNet) (e : Env) (d : DType) (hpar : e.ParamsAre n d)
    (hsafe : n.Safe e.dflt d) (x : DT) (hx : x.Is d) (val : Option DT) (hval : OptIs d val) :
    (∃ y, n.fwd e x = .ok y ∧ y.Is d) ∧
    (∀ wrt, e.dflt = d ∨ n.bareConv = false → Fine (OptIs d) (n.jacobian e x val wrt)) ∧
    (∀ wrt v, v.Is d → Fine (OptIs d) (n.jvp e x val v wrt) ∧
      Fine (OptIs d) (n.vjp e x val v wrt)) ∧
    (∀ wrt m, OptIs d m → m.isSome = true ∨ e.dflt = d ∨ n.bareConv = false →
      Fine (OptIs d) (n.jmp e x val m wrt) ∧ Fine (OptIs d) (n.mjp e x val m wrt)) ∧
    (∀ wrt m f t db, OptIs d m → Fine (OptIs d) (n.jmjTp e x val m wrt f t db) ∧
      Fine (JT.Is d) (n.jTmjp e x val m wrt f t db)) := by
  refine ⟨?_, ?_, ?_, ?_, ?_⟩
  · obtain ⟨y, hy, _⟩ := n.fwd_returns hpar hx.1
    have h := n.fwd_fine hpar hx
    rw [hy] at h
    exact ⟨y, hy, h⟩
  · exact fun wrt hb => (n.jacobian_fine hpar hsafe hx hval wrt hb).mono fun _ => Res1.opt
  · exact fun wrt v hv => ⟨(n.jvp_fine hpar hsafe hx hval hv wrt).mono fun _ => Res1.opt,
      (n.vjp_fine hpar hsafe hx hval hv wrt).mono fun _ => Res1.opt⟩
  · intro wrt m hm hb
    cases m with
    | some v =>
        exact ⟨(n.jmp_fine hpar hsafe hx hval (hm v rfl) wrt).mono fun _ => Res1.opt,
          (n.mjp_fine hpar hsafe hx hval (hm v rfl) wrt).mono fun _ => Res1.opt⟩
    | none =>
        have hb' : e.dflt = d ∨ n.bareConv = false := hb.resolve_left (by simp)
        exact ⟨(n.jmp_none_fine hpar hsafe hx hval wrt hb').mono fun _ => Res1.opt,
          (n.mjp_none_fine hpar hsafe hx hval wrt hb').mono fun _ => Res1.opt⟩
  · exact fun wrt m f t db hm => ⟨n.jmjTp_fine hpar hsafe hx hval hm wrt f t db,
      n.jTmjp_fine hpar hsafe hx hval hm wrt f t db⟩

mutual
/-- When the default dtype is the one of the network, every network is safe.  (In double
precision otherwise: all layers but MaxPool2d, Upsample and Conv2d with
`use_vmap_for_backprop=False`.) -/
theorem C79_default_is_safe (n : DNet) (d : DType) : n.Safe d d := by
  match n with
  | .leaf l =>
      rw [DNet.Safe]
      cases l with
      | linear w b => exact trivial
      | conv w b vm => exact .inr rfl
      | act k => exact trivial
      | reshape => exact trivial
      | l2norm => show d.max d = d; cases d <;> rfl
      | pool => exact rfl
      | upsample => exact rfl
  | .seq c => rw [DNet.Safe]; exact C79_default_is_safe_chain c d
  | .skip c => rw [DNet.Safe]; exact C79_default_is_safe_chain c d
/-- The same for the modules of a Sequential. -/
theorem C79_default_is_safe_chain (c : DChain) (d : DType) : c.Safe d d := by
  match c with
  | .nil => rw [DChain.Safe]; exact trivial
  | .cons n c =>
      rw [DChain.Safe]
      exact ⟨C79_default_is_safe n d, C79_default_is_safe_chain c d⟩
end

/-- The network of the examples: Conv2d with bias, ReLU, Flatten, Linear (e.g. nnj/sequential.py:9). -/
def dtNet (vmap : Bool) : DNet := .seq (.cons (.leaf (.conv 0 (some 1) vmap))
  (.cons (.leaf (.act true)) (.cons (.leaf .reshape) (.cons (.leaf (.linear 2 none)) .nil))))
/-- A network with a MaxPool2d instead of the ReLU (e.g. nnj/maxpool2d.py:9). -/
def dtPool : DNet := .seq (.cons (.leaf (.conv 0 (some 1) true))
  (.cons (.leaf .pool) (.cons (.leaf .reshape) (.cons (.leaf (.linear 2 none)) .nil))))
/-- A program in which everything is in double precision, and torch's default dtype unchanged. -/
def dtEnv : Env := ⟨.single, fun _ => .double⟩
/-- A double precision tensor. -/
def dbl : DT := ⟨.double, .double⟩

-- a double precision network with a Conv2d, a ReLU, a Flatten and a Linear layer, default single
example : dtEnv.ParamsAre (dtNet true) .double ∧ (dtNet true).Safe dtEnv.dflt .double ∧
    dbl.Is .double ∧ (dtNet true).bareConv = false ∧
    (dtNet true).jacobian dtEnv dbl none .weight = .ok (some dbl) ∧
    (dtNet true).vjp dtEnv dbl none dbl .weight = .ok (some dbl) :=
  ⟨fun _ _ => rfl, by simp [dtNet, DNet.Safe, DChain.Safe, Leaf.Safe], ⟨rfl, rfl⟩, rfl,
    by simp only [dtNet, DNet.jacobian, DNet.mjp, DChain.mjp, DChain.mjpW]; rfl,
    by simp only [dtNet, DNet.vjp, DChain.vjp, DChain.vjpW]; rfl⟩

/-- Going backwards, a dtype error is the only exception of any network, in any environment: `vjp`
with a vector, `mjp` and `jTmjp` with a matrix, about the input or the weights, with flags that
pass the assertion. -/
theorem C79_backward_errors (n : DNet) (e : Env) (x : DT) (val : Option DT) (v : DT) (wrt : Wrt)
    (hw : wrt ≠ .other) (f t db : Bool) (hf : db = false ∨ (f = true ∧ t = true)) (err : DErr) :
    (n.vjp e x val v wrt = .error err → err = .dtype) ∧
    (n.mjp e x val (some v) wrt = .error err → err = .dtype) ∧
    (n.jTmjp e x val (some v) wrt f t db = .error err → err = .dtype) := by
  refine ⟨fun h => ?_, fun h => ?_, fun h => ?_⟩
  · have := n.vjp_only e x val v wrt hw
    rw [h] at this
    exact this
  · have := n.mjp_only e x val v wrt hw
    rw [h] at this
    exact this
  · have := n.jTmjp_only e x val v wrt f t db hf hw
    rw [h] at this
    exact this

example : (dtPool).vjp dtEnv dbl none dbl .input = .error .dtype := by
  simp only [dtPool, DNet.vjp, DChain.vjp, DChain.vjpIn]; rfl

/-- So networks of safe layers do return: a tensor of dtype `d` for the input; for the weights a
tensor (a list of tensors) of dtype `d`, or None. -/
theorem C79_backward_returns (n : DNet) (e : Env) (d : DType) (hpar : e.ParamsAre n d)
    (hsafe : n.Safe e.dflt d) (x v : DT) (hx : x.Is d) (hv : v.Is d) (val : Option DT)
    (hval : OptIs d val) (f t db : Bool) (hf : db = false ∨ (f = true ∧ t = true)) :
    (∃ r, n.vjp e x val v .input = .ok (some r) ∧ r.Is d) ∧
    (∃ r, n.mjp e x val (some v) .input = .ok (some r) ∧ r.Is d) ∧
    (∃ r, n.jTmjp e x val (some v) .input f t db = .ok (.one r) ∧ r.Is d) ∧
    (∃ r, n.vjp e x val v .weight = .ok r ∧ OptIs d r) ∧
    (∃ r, n.mjp e x val (some v) .weight = .ok r ∧ OptIs d r) ∧
    (∃ r, n.jTmjp e x val (some v) .weight f t db = .ok r ∧ r.Is d) := by
  have h1 := fun wrt hw => (n.vjp_only e x val v wrt hw).returns
    (n.vjp_fine hpar hsafe hx hval hv wrt)
  have h2 := fun wrt hw => (n.mjp_only e x val v wrt hw).returns
    (n.mjp_fine hpar hsafe hx hval hv wrt)
  have h3 := fun wrt hw => (n.jTmjp_only e x val v wrt f t db hf hw).returns
    (n.jTmjp_fine hpar hsafe hx hval (optIs_some hv) wrt f t db)
  refine ⟨?_, ?_, ?_, ?_, ?_, ?_⟩
  · obtain ⟨_, h, _, r, rfl, hr⟩ := h1 .input (by simp)
    exact ⟨r, h, hr⟩
  · obtain ⟨_, h, _, r, rfl, hr⟩ := h2 .input (by simp)
    exact ⟨r, h, hr⟩
  · obtain ⟨_, h, ⟨r, rfl⟩, hr⟩ := h3 .input (by simp)
    exact ⟨r, h, hr⟩
  · obtain ⟨r, h, _, hr⟩ := h1 .weight (by simp)
    exact ⟨r, h, hr⟩
  · obtain ⟨r, h, _, hr⟩ := h2 .weight (by simp)
    exact ⟨r, h, hr⟩
  · obtain ⟨r, h, _, hr⟩ := h3 .weight (by simp)
    exact ⟨r, h, hr⟩

/-- The likelihoods: gradients and GGNs of such a network have the dtype of the network when the
target has it too. -/
theorem C79_likelihood (n : DNet) (e : Env) (d : DType) (hpar : e.ParamsAre n d)
    (hsafe : n.Safe e.dflt d) (x target : DT) (hx : x.Is d) (ht : target.Is d) (wrt : Wrt)
    (t db : Bool) :
    Fine (OptIs d) (gaussGradient e n x target wrt) ∧
    Fine (OptIs d) (bernoulliGradient e n x target wrt) ∧
    Fine (JT.Is d) (gaussGgn e n x wrt t db) := by
  have hf := n.fwd_fine hpar hx
  refine ⟨hf.bind fun y hy => ?_, hf.bind fun y hy => ?_, hf.bind fun y hy => ?_⟩
  · exact (n.vjp_fine hpar hsafe hx (optIs_some hy) (ht.arith hy) wrt).mono fun _ => Res1.opt
  · exact (n.vjp_fine hpar hsafe hx (optIs_some hy)
      (ht.arith (hy.unary.arith hy.unary)) wrt).mono fun _ => Res1.opt
  · exact n.jTmjp_fine hpar hsafe hx (optIs_some hy)
      (optIs_some (by rw [hy.1]; exact is_const d)) wrt true t db

example : gaussGradient dtEnv (dtNet true) dbl dbl .weight = .ok (some dbl) := by
  simp only [gaussGradient, dtNet, DNet.vjp, DChain.vjp, DChain.vjpW]; rfl

/-- An input of another dtype than the parameters: `forward` of a network with a Linear or Conv2d
layer anywhere raises a dtype error, and without such a layer it returns the dtype of the
input. -/
theorem C79_mixed_forward (n : DNet) (e : Env) (d : DType) (hpar : e.ParamsAre n d) (x : DT)
    (hx : x.ty ≠ d) :
    (n.has Leaf.isParam = true → n.fwd e x = .error .dtype) ∧
    (n.has Leaf.isParam = false → ∃ y, n.fwd e x = .ok y ∧ y.ty = x.ty) := by
  refine ⟨n.fwd_mixed hpar hx, fun h => ?_⟩
  exact n.fwd_returns (by rw [n.params_of_none h]; simp) rfl

example : dtEnv.ParamsAre (dtNet true) .double ∧ (⟨.single, .single⟩ : DT).ty ≠ .double ∧
    (dtNet true).has Leaf.isParam = true := ⟨fun _ _ => rfl, by decide, rfl⟩

/-- `set_weight` turns the parameters into the dtype of the vector, whatever they were: afterwards
`forward` returns that dtype for inputs of it, and raises a dtype error for other inputs. -/
theorem C79_set_weight (n : DNet) (e : Env) (w x : DT) (h : n.has Leaf.isParam = true) :
    (n.setWeight w e).ParamsAre n w.ty ∧
    (x.ty = w.ty → ∃ y, n.fwd (n.setWeight w e) x = .ok y ∧ y.ty = w.ty) ∧
    (x.ty ≠ w.ty → n.fwd (n.setWeight w e) x = .error .dtype) ∧
    ∀ i, i ∉ n.params → (n.setWeight w e).par i = e.par i := by
  have hp : (n.setWeight w e).ParamsAre n w.ty := by
    intro i hi
    show (if i ∈ n.params then w.ty else e.par i) = w.ty
    rw [if_pos hi]
  refine ⟨hp, fun hx => n.fwd_returns hp hx, fun hx => n.fwd_mixed hp hx h, fun i hi => ?_⟩
  show (if i ∈ n.params then w.ty else e.par i) = e.par i
  rw [if_neg hi]

-- a single precision network that gets a double precision vector of weights
example : (dtNet true).fwd ⟨.single, fun _ => .single⟩ ⟨.single, .single⟩
      = .ok ⟨.single, .single⟩ ∧
    (dtNet true).fwd ((dtNet true).setWeight dbl ⟨.single, fun _ => .single⟩)
      ⟨.single, .single⟩ = .error .dtype := ⟨rfl, rfl⟩

/-- `get_weight` of a network with parameters of dtype `d` is of dtype `d` (`None` only without parameters). -/
theorem C79_get_weight (n : DNet) (e : Env) (d : DType) (hpar : e.ParamsAre n d) :
    OptIs d (n.getWeight e) := by
  refine catList_is fun t ht => ?_
  obtain ⟨i, hi, rfl⟩ := List.mem_map.1 ht
  exact is_P (hpar i hi)

example : (dtNet true).getWeight dtEnv = some dbl := rfl

/-- A MaxPool2d or Upsample layer anywhere in a network of dtype `d`, when the default dtype is
another one: `forward` returns, but `vjp` and `mjp` with respect to the input raise a dtype error. -/
theorem C79_resize_backward (n : DNet) (e : Env) (d : DType) (hpar : e.ParamsAre n d)
    (hdf : e.dflt ≠ d) (h : n.has Leaf.isResize = true) (x y v : DT) (hx : x.ty = d)
    (hy : y.ty = d) (hv : v.ty = d) :
    (∃ y, n.fwd e x = .ok y ∧ y.ty = d) ∧
    n.vjp e x (some y) v .input = .error .dtype ∧
    n.mjp e x (some y) (some v) .input = .error .dtype := by
  refine ⟨n.fwd_returns hpar hx,
    (n.vjp_only e x (some y) v .input (by simp)).error fun o ho => ?_,
    (n.mjp_only e x (some y) v .input (by simp)).error fun o ho => ?_⟩
  · have := (n.vjp_ty hpar hx hy hv ho).2 hdf
    rw [h] at this
    cases this
  · have := (n.mjp_ty hpar hx hy hv ho).2 hdf
    rw [h] at this
    cases this

example : dtEnv.ParamsAre dtPool .double ∧ dtEnv.dflt ≠ .double ∧
    dtPool.has Leaf.isResize = true ∧ dbl.ty = .double ∧
    dtPool.fwd dtEnv dbl = .ok dbl ∧
    dtPool.vjp dtEnv dbl (some dbl) dbl .input = .error .dtype :=
  ⟨fun _ _ => rfl, by decide, rfl, rfl, rfl, by
    simp only [dtPool, DNet.vjp, DChain.vjp, DChain.vjpIn]; rfl⟩

/-- In particular such a network cannot be trained when the layer is not the first one: the
gradient of LogGaussian with respect to the weights raises a dtype error. -/
theorem C79_resize_training (n : DNet) (c : DChain) (e : Env) (d : DType)
    (hpar : e.ParamsAre (.seq (.cons n c)) d) (hdf : e.dflt ≠ d)
    (h : c.has Leaf.isResize = true) (x target : DT) (hx : x.ty = d) (ht : target.ty = d) :
    gaussGradient e (.seq (.cons n c)) x target .weight = .error .dtype := by
  refine Only.error (P := Any) ((DNet.fwd_only e _ x).bind fun y _ =>
    (DNet.vjp_only e _ x (some y) _ .weight (by simp)).mono fun _ _ => trivial) fun o ho => ?_
  have hp := seq_params hpar
  obtain ⟨y, hy, ho⟩ := bind_ok ho
  obtain ⟨y', hy', hyt⟩ := DNet.fwd_returns (.seq (.cons n c)) hpar hx
  rw [hy] at hy'
  cases hy'
  rw [DNet.vjp, DChain.vjp] at ho
  obtain ⟨r, hr, ho⟩ := bind_ok ho
  rw [DChain.vjpW] at hr
  obtain ⟨z, hz, hr⟩ := bind_ok hr
  obtain ⟨u, hu, hr⟩ := bind_ok hr
  obtain ⟨z', hz', hzt⟩ := n.fwd_returns (cons_params hp).1 hx
  rw [hz] at hz'
  cases hz'
  have := (c.vjpW_false (cons_params hp).2 hzt (arith_ty ht hyt) hu).2 hdf
  rw [h] at this
  cases this

example : gaussGradient dtEnv dtPool dbl dbl .weight = .error .dtype := by
  simp only [gaussGradient, dtPool, DNet.vjp, DChain.vjp, DChain.vjpW]; rfl

/-- Conv2d on its own, when the default dtype is not that of the layer: `jacobian`, and `mjp` and
`jmp` without a matrix, raise a dtype error; inside a Sequential they do not
(`C79_dtype_kept`). -/
theorem C79_conv_jacobian (w : Nat) (b : Option Nat) (vm : Bool) (e : Env) (d : DType)
    (hpar : e.ParamsAre (.leaf (.conv w b vm)) d) (hdf : e.dflt ≠ d) (x : DT) (hx : x.ty = d)
    (wrt : Wrt) (hwrt : wrt ≠ .other) :
    (DNet.leaf (.conv w b vm)).jacobian e x none wrt = .error .dtype ∧
    (DNet.leaf (.conv w b vm)).mjp e x none none wrt = .error .dtype ∧
    (DNet.leaf (.conv w b vm)).jmp e x none none wrt = .error .dtype := by
  have hp : ∀ i ∈ (Leaf.conv w b vm).params, e.par i = d := by
    rw [← leaf_params]
    exact hpar
  obtain ⟨y, hy, _⟩ := Leaf.fwd_returns hp hx
  have hj : convJacobian e w b vm x none wrt = .error .dtype := by
    unfold convJacobian
    show ((Leaf.conv w b vm).fwd e x >>= fun val => _) = _
    rw [hy]
    show convVjp e w b vm x (some y) (.const e.dflt) wrt = _
    cases wrt with
    | input =>
        show (do .ok (some (← (DT.const e.dflt).contract (e.P w))) : DRes (Option DT)) = _
        rw [contract_ne]
        · rfl
        · intro hc
          exact hdf (hc.trans (hp w (by simp [Leaf.params])))
    | weight =>
        show (do
          let r ← convRows e vm x (.const e.dflt)
          .ok (some (if b.isSome then r.cat (DT.const e.dflt).unary else r)) :
            DRes (Option DT)) = _
        unfold convRows
        rw [contract_ne]
        · rfl
        · intro hc
          exact hdf (hc.trans hx)
    | other => exact absurd rfl hwrt
  refine ⟨hj, ?_, ?_⟩
  · rw [DNet.mjp]; exact hj
  · rw [DNet.jmp]; exact hj

example : dtEnv.ParamsAre (.leaf (.conv 0 (some 1) true)) .double ∧ dtEnv.dflt ≠ .double ∧
    dbl.ty = .double := ⟨fun _ _ => rfl, by decide, rfl⟩

/-- Conv2d built with `use_vmap_for_backprop=False` in a double precision program with the default
dtype unchanged: the products with the weights raise nothing, and return a single precision tensor
(no bias, or a full matrix) or a double precision tensor whose numbers were rounded to single
precision. -/
theorem C79_loop_conv (w : Nat) (b : Option Nat) (e : Env) (hdf : e.dflt = .single)
    (x v : DT) (hx : x.Is .double) (hv : v.Is .double) (val : DT) :
    let ty := if b.isSome = true then DType.double else DType.single
    (DNet.leaf (.conv w b false)).vjp e x (some val) v .weight = .ok (some ⟨ty, .single⟩) ∧
    (DNet.leaf (.conv w b false)).mjp e x (some val) (some v) .weight
      = .ok (some ⟨ty, .single⟩) ∧
    (DNet.leaf (.conv w b false)).jTmjp e x (some val) (some v) .weight true true false
      = .ok (.one ⟨ty, .single⟩) ∧
    (DNet.leaf (.conv w b false)).jTmjp e x (some val) (some v) .weight false false false
      = .ok (.one ⟨.single, .single⟩) := by
  have hx' : x = dbl := by
    rcases x with ⟨_ | _, _ | _⟩ <;> revert hx <;> simp [DT.Is, DType.min, dbl]
  have hv' : v = dbl := by
    rcases v with ⟨_ | _, _ | _⟩ <;> revert hv <;> simp [DT.Is, DType.min, dbl]
  subst hx'
  subst hv'
  have he : e = ⟨.single, e.par⟩ := by
    cases e
    cases hdf
    rfl
  rw [he]
  cases b <;>
    exact ⟨by rw [DNet.vjp]; rfl, by rw [DNet.mjp]; rfl, by rw [DNet.jTmjp]; rfl,
      by rw [DNet.jTmjp]; rfl⟩

example : dtEnv.dflt = .single ∧ dbl.Is .double := ⟨rfl, ⟨rfl, rfl⟩⟩

/-- And one such layer anywhere in a network spoils the gradient: whenever `vjp` or `mjp` with
respect to the weights returns, the returned tensor contains numbers rounded to single
precision, whatever its dtype. -/
theorem C79_loop_conv_net (n : DNet) (e : Env) (hdf : e.dflt = .single)
    (h : n.has Leaf.isLoopConv = true) (x v : DT) (val m : Option DT) :
    (∀ o, n.vjp e x val v .weight = .ok o → ∃ t, o = some t ∧ t.acc = .single) ∧
    (∀ o, n.mjp e x val m .weight = .ok o → ∃ t, o = some t ∧ t.acc = .single) :=
  ⟨fun _ ho => n.vjp_loop h hdf ho, fun _ ho => n.mjp_loop h hdf ho⟩

-- a double precision tensor comes back, with single precision numbers in it
example : (dtNet false).has Leaf.isLoopConv = true ∧
    (dtNet false).vjp dtEnv dbl none dbl .weight = .ok (some ⟨.double, .single⟩) ∧
    (dtNet true).vjp dtEnv dbl none dbl .weight = .ok (some ⟨.double, .double⟩) :=
  ⟨rfl, by simp only [dtNet, DNet.vjp, DChain.vjp, DChain.vjpW]; rfl, by
    simp only [dtNet, DNet.vjp, DChain.vjp, DChain.vjpW]; rfl⟩

/-- The Jacobian of MaxPool2d has the default dtype, whatever the dtype of the input; that of
L2Norm the wider of the two. -/
theorem C79_default_jacobians (e : Env) (x : DT) (val : Option DT) :
    (∃ t, (DNet.leaf .pool).jacobian e x val .input = .ok (some t) ∧ t.ty = e.dflt) ∧
    (∃ t, (DNet.leaf .l2norm).jacobian e x val .input = .ok (some t) ∧
      t.ty = e.dflt.max x.ty) := by
  refine ⟨⟨_, rfl, rfl⟩, ⟨_, rfl, ?_⟩⟩
  show x.ty.max (e.dflt.max ((x.ty.max x.ty).max (x.ty.max x.ty))) = e.dflt.max x.ty
  cases x.ty <;> cases e.dflt <;> rfl

example : (DNet.leaf .pool).jacobian dtEnv dbl none .input = .ok (some ⟨.single, .double⟩) := rfl

end NNJ.Props
