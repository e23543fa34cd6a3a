import Verif.Proofs.DtypeNet

/-!
# Dtypes: what goes wrong when the default dtype is another one
-/

namespace NNJ.Dt

section
variable {d : DType} {e : Env}

theorem bind_ok {β γ : Type} {r : DRes β} {f : β → DRes γ} {v : γ} (h : (r >>= f) = .ok v) :
    ∃ u, r = .ok u ∧ f u = .ok v := by
  cases r with
  | error err => cases h
  | ok u => exact ⟨u, rfl, h⟩

theorem need_ok {o : Option DT} {t : DT} (h : need o = .ok t) : o = some t := by
  cases o with
  | none => cases h
  | some s =>
      cases h
      rfl

theorem contract_ok {a b t : DT} (h : a.contract b = .ok t) : a.ty = b.ty ∧ t = a.arith b := by
  unfold DT.contract at h
  split at h
  · rename_i hab
    cases h
    exact ⟨hab, rfl⟩
  · cases h

theorem contract_ne {a b : DT} (h : a.ty ≠ b.ty) : a.contract b = .error .dtype := by
  unfold DT.contract
  rw [if_neg h]

theorem contract_eq {a b : DT} (h : a.ty = b.ty) : a.contract b = .ok (a.arith b) := by
  unfold DT.contract
  rw [if_pos h]

theorem arith_ty {a b : DT} (h : a.ty = d) (h' : b.ty = d) : (a.arith b).ty = d := by
  show a.ty.max b.ty = d
  rw [h, h']
  cases d <;> rfl

theorem cat_ty {a b : DT} (h : a.ty = d) (h' : b.ty = d) : (a.cat b).ty = d := arith_ty h h'

theorem contract_ok_ty {a b t : DT} (h : a.contract b = .ok t) : t.ty = a.ty ∧ t.ty = b.ty := by
  obtain ⟨hab, rfl⟩ := contract_ok h
  exact ⟨arith_ty rfl hab.symm, arith_ty hab rfl⟩

/-! ### `forward` -/

theorem addBias_returns {y : DT} {b : Option Nat} (hb : ∀ i ∈ b, e.par i = d) (hy : y.ty = d) :
    ∃ z, addBias e y b = .ok z ∧ z.ty = d := by
  cases b with
  | none => exact ⟨y, rfl, hy⟩
  | some i =>
      have hP : (e.P i).ty = d := hb i rfl
      exact ⟨_, contract_eq (hy.trans hP.symm), arith_ty hy hP⟩

theorem Leaf.fwd_returns {l : Leaf} (hp : ∀ i ∈ l.params, e.par i = d) {x : DT} (hx : x.ty = d) :
    ∃ y, l.fwd e x = .ok y ∧ y.ty = d := by
  have hlin : ∀ (w : Nat) (b : Option Nat), (∀ i ∈ w :: b.toList, e.par i = d) →
      ∃ y, (do addBias e (← x.contract (e.P w)) b : DRes DT) = .ok y ∧ y.ty = d := by
    intro w b h
    have hP : (e.P w).ty = d := h w (by simp)
    rw [contract_eq (hx.trans hP.symm)]
    exact addBias_returns (fun i hi => h i (by simp [Option.mem_def.1 hi])) (arith_ty hx hP)
  cases l with
  | linear w b => exact hlin w b hp
  | conv w b v => exact hlin w b hp
  | act k => exact ⟨_, rfl, hx⟩
  | reshape => exact ⟨_, rfl, hx⟩
  | l2norm => exact ⟨_, rfl, arith_ty hx hx⟩
  | pool => exact ⟨_, rfl, hx⟩
  | upsample => exact ⟨_, rfl, hx⟩

mutual
theorem DNet.fwd_returns (n : DNet) (hp : ∀ i ∈ n.params, e.par i = d) {x : DT} (hx : x.ty = d) :
    ∃ y, n.fwd e x = .ok y ∧ y.ty = d := by
  match n with
  | .leaf l => rw [DNet.fwd]; exact l.fwd_returns (by rwa [leaf_params] at hp) hx
  | .seq c => rw [DNet.fwd]; exact c.fwd_returns (seq_params hp) hx
  | .skip c =>
      rw [DNet.fwd]
      obtain ⟨y, hy, hyt⟩ := c.fwd_returns (skip_params hp) hx
      rw [hy]
      exact ⟨_, rfl, cat_ty hx hyt⟩
theorem DChain.fwd_returns (c : DChain) (hp : ∀ i ∈ c.params, e.par i = d) {x : DT}
    (hx : x.ty = d) : ∃ y, c.fwd e x = .ok y ∧ y.ty = d := by
  match c with
  | .nil => rw [DChain.fwd]; exact ⟨x, rfl, hx⟩
  | .cons n c =>
      rw [DChain.fwd]
      obtain ⟨y, hy, hyt⟩ := n.fwd_returns (cons_params hp).1 hx
      rw [hy]
      exact c.fwd_returns (cons_params hp).2 hyt
end

mutual
theorem DNet.params_of_none (n : DNet) (h : n.has Leaf.isParam = false) : n.params = [] := by
  match n with
  | .leaf l =>
      rw [DNet.has] at h
      rw [leaf_params]
      cases l <;> first | rfl | cases h
  | .seq c => rw [DNet.has] at h; rw [DNet.params]; exact c.params_of_none h
  | .skip c => rw [DNet.has] at h; rw [DNet.params]; exact c.params_of_none h
theorem DChain.params_of_none (c : DChain) (h : c.has Leaf.isParam = false) :
    c.params = [] := by
  match c with
  | .nil => rfl
  | .cons n c =>
      rw [DChain.has, Bool.or_eq_false_iff] at h
      rw [DChain.params, n.params_of_none h.1, c.params_of_none h.2]
      rfl
end

mutual
theorem DNet.fwd_mixed (n : DNet) (hp : ∀ i ∈ n.params, e.par i = d) {x : DT} (hx : x.ty ≠ d)
    (h : n.has Leaf.isParam = true) : n.fwd e x = .error .dtype := by
  match n with
  | .leaf l =>
      rw [DNet.has] at h
      rw [leaf_params] at hp
      have hlin : ∀ (w : Nat) (b : Option Nat), e.par w = d →
          (do addBias e (← x.contract (e.P w)) b : DRes DT) = .error .dtype := by
        intro w b hw
        rw [contract_ne (fun hc => hx (hc.trans hw))]
        rfl
      rw [DNet.fwd]
      cases l with
      | linear w b => exact hlin w b (hp w (by simp [Leaf.params]))
      | conv w b v => exact hlin w b (hp w (by simp [Leaf.params]))
      | act k => cases h
      | reshape => cases h
      | l2norm => cases h
      | pool => cases h
      | upsample => cases h
  | .seq c => rw [DNet.has] at h; rw [DNet.fwd]; exact c.fwd_mixed (seq_params hp) hx h
  | .skip c =>
      rw [DNet.has] at h
      rw [DNet.fwd, c.fwd_mixed (skip_params hp) hx h]
      rfl
theorem DChain.fwd_mixed (c : DChain) (hp : ∀ i ∈ c.params, e.par i = d) {x : DT}
    (hx : x.ty ≠ d) (h : c.has Leaf.isParam = true) : c.fwd e x = .error .dtype := by
  match c with
  | .nil => rw [DChain.has] at h; cases h
  | .cons n c =>
      rw [DChain.fwd]
      cases hn : n.has Leaf.isParam with
      | true => rw [n.fwd_mixed (cons_params hp).1 hx hn]; rfl
      | false =>
          have hnp := n.params_of_none hn
          obtain ⟨y, hy, hyt⟩ := n.fwd_returns (e := e) (d := x.ty)
            (by rw [hnp]; simp) (x := x) rfl
          rw [hy]
          rw [DChain.has, hn, Bool.false_or] at h
          exact c.fwd_mixed (cons_params hp).2 (by rw [hyt]; exact hx) h
end

/-! ### Backward through MaxPool2d and Upsample -/

theorem Leaf.vjp_ty {l : Leaf} {x v : DT} {y : DT} (hx : x.ty = d) (hy : y.ty = d)
    (hv : v.ty = d) {o : Option DT} (h : l.vjp e x (some y) v .input = .ok o) :
    ∃ t, o = some t ∧ t.ty = d := by
  cases l with
  | linear w b =>
      obtain ⟨t, ht, h⟩ := bind_ok h
      cases h
      exact ⟨t, rfl, (contract_ok_ty ht).1.trans hv⟩
  | conv w b vm =>
      obtain ⟨u, hu, h⟩ := bind_ok h
      obtain ⟨t, ht, h⟩ := bind_ok h
      cases h
      exact ⟨t, rfl, (contract_ok_ty ht).1.trans hv⟩
  | act k =>
      cases h
      refine ⟨_, rfl, arith_ty ?_ hv⟩
      cases k
      · exact hx
      · exact hy
  | reshape =>
      cases h
      exact ⟨v, rfl, hv⟩
  | l2norm =>
      obtain ⟨u, hu, h⟩ := bind_ok h
      cases hu
      obtain ⟨t, ht, h⟩ := bind_ok h
      cases h
      exact ⟨t, rfl, (contract_ok_ty ht).2.trans hv⟩
  | pool =>
      obtain ⟨t, ht, h⟩ := bind_ok h
      cases h
      unfold DT.indexPut at ht
      split at ht
      · rename_i hc
        cases ht
        exact ⟨_, rfl, hc.trans hv⟩
      · cases ht
  | upsample =>
      obtain ⟨t, ht, h⟩ := bind_ok h
      cases h
      exact ⟨t, rfl, (contract_ok_ty ht).1.trans hv⟩

theorem Leaf.vjp_resize {l : Leaf} (hl : l.isResize = true) (hd : e.dflt ≠ d) {x v : DT}
    {val : Option DT} (hv : v.ty = d) : l.vjp e x val v .input = .error .dtype := by
  cases l with
  | pool =>
      show (do .ok (some (← (DT.const e.dflt).indexPut v)) : DRes (Option DT)) = _
      unfold DT.indexPut
      rw [if_neg (fun hc => hd (hc.trans hv))]
      rfl
  | upsample =>
      show (do .ok (some (← v.contract (.const e.dflt))) : DRes (Option DT)) = _
      rw [contract_ne (fun hc => hd (hc.symm.trans hv))]
      rfl
  | linear w b => cases hl
  | conv w b vm => cases hl
  | act k => cases hl
  | reshape => cases hl
  | l2norm => cases hl

mutual
theorem DNet.vjp_ty (n : DNet) (hp : ∀ i ∈ n.params, e.par i = d) {x y v : DT} (hx : x.ty = d)
    (hy : y.ty = d) (hv : v.ty = d) {o : Option DT}
    (h : n.vjp e x (some y) v .input = .ok o) :
    (∃ t, o = some t ∧ t.ty = d) ∧ (e.dflt ≠ d → n.has Leaf.isResize = false) := by
  match n with
  | .leaf l =>
      rw [DNet.vjp] at h
      refine ⟨Leaf.vjp_ty hx hy hv h, fun hd => ?_⟩
      rw [DNet.has]
      cases hc : l.isResize with
      | false => rfl
      | true =>
          rw [Leaf.vjp_resize hc hd hv] at h
          cases h
  | .seq c =>
      rw [DNet.vjp, DChain.vjp] at h
      obtain ⟨t, ht, h⟩ := bind_ok h
      cases h
      obtain ⟨h1, h2⟩ := c.vjpIn_ty (seq_params hp) hx hv ht
      exact ⟨⟨t, rfl, h1⟩, by rw [DNet.has]; exact h2⟩
  | .skip c =>
      rw [DNet.vjp] at h
      obtain ⟨r, hr, h⟩ := bind_ok h
      rw [DChain.vjp] at hr
      obtain ⟨t, ht, hr⟩ := bind_ok hr
      cases hr
      obtain ⟨u, hu, h⟩ := bind_ok h
      cases hu
      cases h
      obtain ⟨h1, h2⟩ := c.vjpIn_ty (skip_params hp) hx hv ht
      exact ⟨⟨_, rfl, arith_ty hv h1⟩, by rw [DNet.has]; exact h2⟩
theorem DChain.vjpIn_ty (c : DChain) (hp : ∀ i ∈ c.params, e.par i = d) {x v t : DT}
    (hx : x.ty = d) (hv : v.ty = d) (h : c.vjpIn e x v = .ok t) :
    t.ty = d ∧ (e.dflt ≠ d → c.has Leaf.isResize = false) := by
  match c with
  | .nil =>
      rw [DChain.vjpIn] at h
      cases h
      exact ⟨hv, fun _ => by rw [DChain.has]⟩
  | .cons n c =>
      rw [DChain.vjpIn] at h
      obtain ⟨y, hy, h⟩ := bind_ok h
      obtain ⟨u, hu, h⟩ := bind_ok h
      obtain ⟨o, ho, h⟩ := bind_ok h
      obtain ⟨y', hy', hyt⟩ := n.fwd_returns (cons_params hp).1 hx
      rw [hy] at hy'
      cases hy'
      obtain ⟨h1, h2⟩ := c.vjpIn_ty (cons_params hp).2 hyt hv hu
      obtain ⟨⟨q, rfl, hq⟩, h4⟩ := n.vjp_ty (cons_params hp).1 hx hyt h1 ho
      cases h
      refine ⟨hq, fun hd => ?_⟩
      rw [DChain.has, h4 hd, h2 hd]
      rfl
end

theorem DChain.vjpW_false (c : DChain) (hp : ∀ i ∈ c.params, e.par i = d) {x v : DT}
    (hx : x.ty = d) (hv : v.ty = d) {r : List DT × DT} (h : c.vjpW e false x v = .ok r) :
    r.2.ty = d ∧ (e.dflt ≠ d → c.has Leaf.isResize = false) := by
  match c with
  | .nil =>
      rw [DChain.vjpW] at h
      cases h
      exact ⟨hv, fun _ => by rw [DChain.has]⟩
  | .cons n c =>
      rw [DChain.vjpW] at h
      obtain ⟨y, hy, h⟩ := bind_ok h
      obtain ⟨u, hu, h⟩ := bind_ok h
      obtain ⟨w, hw, h⟩ := bind_ok h
      rw [if_neg (by simp)] at h
      obtain ⟨o, ho, h⟩ := bind_ok h
      obtain ⟨y', hy', hyt⟩ := n.fwd_returns (cons_params hp).1 hx
      rw [hy] at hy'
      cases hy'
      obtain ⟨h1, h2⟩ := c.vjpW_false (cons_params hp).2 hyt hv hu
      obtain ⟨⟨q, rfl, hq⟩, h4⟩ := n.vjp_ty (cons_params hp).1 hx hyt h1 ho
      cases h
      refine ⟨hq, fun hd => ?_⟩
      rw [DChain.has, h4 hd, h2 hd]
      rfl

theorem Leaf.mjp_some {l : Leaf} {x v : DT} {val : Option DT} (wrt : Wrt) :
    l.mjp e x val (some v) wrt = l.vjp e x val v wrt := by cases l <;> rfl

mutual
theorem DNet.mjp_ty (n : DNet) (hp : ∀ i ∈ n.params, e.par i = d) {x y v : DT} (hx : x.ty = d)
    (hy : y.ty = d) (hv : v.ty = d) {o : Option DT}
    (h : n.mjp e x (some y) (some v) .input = .ok o) :
    (∃ t, o = some t ∧ t.ty = d) ∧ (e.dflt ≠ d → n.has Leaf.isResize = false) := by
  match n with
  | .leaf l =>
      rw [DNet.mjp, Leaf.mjp_some] at h
      refine ⟨Leaf.vjp_ty hx hy hv h, fun hd => ?_⟩
      rw [DNet.has]
      cases hc : l.isResize with
      | false => rfl
      | true =>
          rw [Leaf.vjp_resize hc hd hv] at h
          cases h
  | .seq c =>
      rw [DNet.mjp, DChain.mjp] at h
      obtain ⟨h1, h2⟩ := c.mjpIn_ty (seq_params hp) hx hv h
      exact ⟨h1, by rw [DNet.has]; exact h2⟩
  | .skip c =>
      rw [DNet.mjp] at h
      obtain ⟨r, hr, h⟩ := bind_ok h
      rw [DChain.mjp] at hr
      obtain ⟨⟨t, rfl, h1⟩, h2⟩ := c.mjpIn_ty (skip_params hp) hx hv hr
      obtain ⟨u, hu, h⟩ := bind_ok h
      cases hu
      cases h
      exact ⟨⟨_, rfl, arith_ty hv h1⟩, by rw [DNet.has]; exact h2⟩
theorem DChain.mjpIn_ty (c : DChain) (hp : ∀ i ∈ c.params, e.par i = d) {x v : DT}
    (hx : x.ty = d) (hv : v.ty = d) {o : Option DT} (h : c.mjpIn e x (some v) = .ok o) :
    (∃ t, o = some t ∧ t.ty = d) ∧ (e.dflt ≠ d → c.has Leaf.isResize = false) := by
  match c with
  | .nil =>
      rw [DChain.mjpIn] at h
      cases h
      exact ⟨⟨v, rfl, hv⟩, fun _ => by rw [DChain.has]⟩
  | .cons n c =>
      rw [DChain.mjpIn] at h
      obtain ⟨y, hy, h⟩ := bind_ok h
      obtain ⟨u, hu, h⟩ := bind_ok h
      obtain ⟨y', hy', hyt⟩ := n.fwd_returns (cons_params hp).1 hx
      rw [hy] at hy'
      cases hy'
      obtain ⟨⟨q, rfl, hq⟩, h2⟩ := c.mjpIn_ty (cons_params hp).2 hyt hv hu
      obtain ⟨h3, h4⟩ := n.mjp_ty (cons_params hp).1 hx hyt hq h
      refine ⟨h3, fun hd => ?_⟩
      rw [DChain.has, h4 hd, h2 hd]
      rfl
end

/-! ### Conv2d with `use_vmap_for_backprop=False` -/

theorem cat_acc_left {a b : DT} (h : a.acc = .single) : (a.cat b).acc = .single := by
  show a.acc.min b.acc = .single
  rw [h]
  cases b.acc <;> rfl

theorem cat_acc_right {a b : DT} (h : b.acc = .single) : (a.cat b).acc = .single := by
  show a.acc.min b.acc = .single
  rw [h]
  cases a.acc <;> rfl

theorem catList_acc {ts : List DT} (h : ∃ t ∈ ts, t.acc = .single) :
    ∃ t, catList ts = some t ∧ t.acc = .single := by
  cases ts with
  | nil => obtain ⟨t, ht, _⟩ := h; cases ht
  | cons s ts =>
      refine ⟨_, rfl, ?_⟩
      have key : ∀ (ts : List DT) (s : DT), (s.acc = .single ∨ ∃ t ∈ ts, t.acc = .single) →
          (ts.foldl DT.cat s).acc = .single := by
        intro ts
        induction ts with
        | nil =>
            intro s hs
            rcases hs with hs | ⟨t, ht, _⟩
            · exact hs
            · cases ht
        | cons q ts ih =>
            intro s hs
            refine ih (s.cat q) ?_
            rcases hs with hs | ⟨t, ht, hta⟩
            · exact .inl (cat_acc_left hs)
            · rcases List.mem_cons.1 ht with rfl | ht
              · exact .inl (cat_acc_right hta)
              · exact .inr ⟨t, ht, hta⟩
      refine key ts s ?_
      obtain ⟨t, ht, hta⟩ := h
      rcases List.mem_cons.1 ht with rfl | ht
      · exact .inl hta
      · exact .inr ⟨t, ht, hta⟩

theorem copyInto_single {a v : DT} (h : a.ty = .single) : (a.copyInto v).acc = .single := by
  show (a.acc.min v.acc).min a.ty = .single
  rw [h]
  cases (a.acc.min v.acc) <;> rfl

theorem Leaf.vjp_loop {l : Leaf} (hl : l.isLoopConv = true) (hd : e.dflt = .single) {x v : DT}
    {val o : Option DT} (h : l.vjp e x val v .weight = .ok o) :
    ∃ t, o = some t ∧ t.acc = .single := by
  cases l with
  | conv w b vm =>
      cases vm with
      | true => cases hl
      | false =>
          obtain ⟨u, hu, h⟩ := bind_ok h
          obtain ⟨r, hr, h⟩ := bind_ok h
          obtain ⟨q, hq, hr⟩ := bind_ok hr
          cases hr
          cases h
          refine ⟨_, rfl, ?_⟩
          have hs : ((DT.const e.dflt).copyInto q).acc = .single := copyInto_single hd
          show (if b.isSome = true then _ else _ : DT).acc = .single
          split
          · exact cat_acc_left hs
          · exact hs
  | linear w b => cases hl
  | act k => cases hl
  | reshape => cases hl
  | l2norm => cases hl
  | pool => cases hl
  | upsample => cases hl

theorem Leaf.mjp_loop {l : Leaf} (hl : l.isLoopConv = true) (hd : e.dflt = .single) {x : DT}
    {val m o : Option DT} (h : l.mjp e x val m .weight = .ok o) :
    ∃ t, o = some t ∧ t.acc = .single := by
  cases m with
  | some v => rw [Leaf.mjp_some] at h; exact Leaf.vjp_loop hl hd h
  | none =>
      cases l with
      | conv w b vm =>
          obtain ⟨u, hu, h⟩ := bind_ok h
          exact Leaf.vjp_loop (l := .conv w b vm) hl hd h
      | linear w b => cases hl
      | act k => cases hl
      | reshape => cases hl
      | l2norm => cases hl
      | pool => cases hl
      | upsample => cases hl

theorem pushSome_mem {o : Option DT} {t : DT} (h : o = some t) (ts : List DT) :
    t ∈ pushSome o ts := by
  subst h
  simp [pushSome]

theorem pushSome_sub {o : Option DT} {ts : List DT} {t : DT} (h : t ∈ ts) :
    t ∈ pushSome o ts := by
  cases o <;> simp [pushSome, h]

mutual
theorem DNet.vjp_loop (n : DNet) (hl : n.has Leaf.isLoopConv = true) (hd : e.dflt = .single)
    {x v : DT} {val o : Option DT} (h : n.vjp e x val v .weight = .ok o) :
    ∃ t, o = some t ∧ t.acc = .single := by
  match n with
  | .leaf l =>
      rw [DNet.has] at hl
      rw [DNet.vjp] at h
      exact Leaf.vjp_loop hl hd h
  | .seq c =>
      rw [DNet.has] at hl
      rw [DNet.vjp, DChain.vjp] at h
      obtain ⟨r, hr, h⟩ := bind_ok h
      cases h
      exact catList_acc (c.vjpW_loop hl hd hr)
  | .skip c =>
      rw [DNet.has] at hl
      rw [DNet.vjp] at h
      obtain ⟨q, hq, h⟩ := bind_ok h
      cases h
      rw [DChain.vjp] at hq
      obtain ⟨r, hr, hq⟩ := bind_ok hq
      cases hq
      exact catList_acc (c.vjpW_loop hl hd hr)
theorem DChain.vjpW_loop (c : DChain) (hl : c.has Leaf.isLoopConv = true)
    (hd : e.dflt = .single) {first : Bool} {x v : DT} {r : List DT × DT}
    (h : c.vjpW e first x v = .ok r) : ∃ t ∈ r.1, t.acc = .single := by
  match c with
  | .nil => rw [DChain.has] at hl; cases hl
  | .cons n c =>
      rw [DChain.vjpW] at h
      obtain ⟨y, hy, h⟩ := bind_ok h
      obtain ⟨u, hu, h⟩ := bind_ok h
      obtain ⟨w, hw, h⟩ := bind_ok h
      have hmem : ∃ t ∈ pushSome w u.1, t.acc = .single := by
        rw [DChain.has, Bool.or_eq_true] at hl
        rcases hl with hl | hl
        · obtain ⟨t, ht, hta⟩ := n.vjp_loop hl hd hw
          exact ⟨t, pushSome_mem ht _, hta⟩
        · obtain ⟨t, ht, hta⟩ := c.vjpW_loop hl hd hu
          exact ⟨t, pushSome_sub ht, hta⟩
      dsimp only at h
      split at h
      · cases h
        exact hmem
      · obtain ⟨o, ho, h⟩ := bind_ok h
        obtain ⟨q, hq, h⟩ := bind_ok h
        cases h
        exact hmem
end

mutual
theorem DNet.mjp_loop (n : DNet) (hl : n.has Leaf.isLoopConv = true) (hd : e.dflt = .single)
    {x : DT} {val m o : Option DT} (h : n.mjp e x val m .weight = .ok o) :
    ∃ t, o = some t ∧ t.acc = .single := by
  match n with
  | .leaf l =>
      rw [DNet.has] at hl
      rw [DNet.mjp] at h
      exact Leaf.mjp_loop hl hd h
  | .seq c =>
      rw [DNet.has] at hl
      rw [DNet.mjp] at h
      exact c.mjp_loop hl hd h
  | .skip c =>
      rw [DNet.has] at hl
      cases m with
      | some v =>
          rw [DNet.mjp] at h
          obtain ⟨q, hq, h⟩ := bind_ok h
          cases h
          exact c.mjp_loop hl hd hq
      | none =>
          rw [DNet.mjp] at h
          obtain ⟨q, hq, h⟩ := bind_ok h
          obtain ⟨t, rfl, hta⟩ := c.mjp_loop hl hd hq
          cases h
          exact ⟨_, rfl, cat_acc_right hta⟩
theorem DChain.mjp_loop (c : DChain) (hl : c.has Leaf.isLoopConv = true)
    (hd : e.dflt = .single) {x : DT} {m o : Option DT} (h : c.mjp e x m .weight = .ok o) :
    ∃ t, o = some t ∧ t.acc = .single := by
  rw [DChain.mjp] at h
  obtain ⟨r, hr, h⟩ := bind_ok h
  cases h
  exact catList_acc (c.mjpW_loop hl hd hr)
theorem DChain.mjpW_loop (c : DChain) (hl : c.has Leaf.isLoopConv = true)
    (hd : e.dflt = .single) {first : Bool} {x : DT} {m : Option DT} {r : List DT × Option DT}
    (h : c.mjpW e first x m = .ok r) : ∃ t ∈ r.1, t.acc = .single := by
  match c with
  | .nil => rw [DChain.has] at hl; cases hl
  | .cons n c =>
      rw [DChain.mjpW] at h
      obtain ⟨y, hy, h⟩ := bind_ok h
      obtain ⟨u, hu, h⟩ := bind_ok h
      obtain ⟨w, hw, h⟩ := bind_ok h
      have hmem : ∃ t ∈ pushSome w u.1, t.acc = .single := by
        rw [DChain.has, Bool.or_eq_true] at hl
        rcases hl with hl | hl
        · obtain ⟨t, ht, hta⟩ := n.mjp_loop hl hd hw
          exact ⟨t, pushSome_mem ht _, hta⟩
        · obtain ⟨t, ht, hta⟩ := c.mjpW_loop hl hd hu
          exact ⟨t, pushSome_sub ht, hta⟩
      dsimp only at h
      split at h
      · cases h
        exact hmem
      · obtain ⟨o, ho, h⟩ := bind_ok h
        cases h
        exact hmem
end

end

end NNJ.Dt
