import Verif.Spec.Dtype

/-!
# Dtypes: helper lemmas
-/

namespace NNJ.Dt

theorem Fine.bind {β γ : Type} {P : β → Prop} {Q : γ → Prop} {r : DRes β} {f : β → DRes γ}
    (h : Fine P r) (hf : ∀ v, P v → Fine Q (f v)) : Fine Q (r >>= f) := by
  cases r with
  | error err => exact h
  | ok v => exact hf v h

theorem Fine.mono {β : Type} {P Q : β → Prop} {r : DRes β} (h : Fine P r)
    (hf : ∀ v, P v → Q v) : Fine Q r := by
  cases r with
  | error err => exact h
  | ok v => exact hf v h

theorem is_const (d : DType) : (DT.const d).Is d := by cases d <;> exact ⟨rfl, rfl⟩

theorem DT.Is.unary {d : DType} {a : DT} (h : a.Is d) : a.unary.Is d := by
  rcases a with ⟨_ | _, _ | _⟩ <;> rcases d with _ | _ <;> revert h <;>
    simp [DT.Is, DT.unary, DType.min]

theorem DT.Is.arith {d : DType} {a b : DT} (h : a.Is d) (h' : b.Is d) : (a.arith b).Is d := by
  rcases a with ⟨_ | _, _ | _⟩ <;> rcases b with ⟨_ | _, _ | _⟩ <;> rcases d with _ | _ <;>
    revert h h' <;> simp [DT.Is, DT.arith, DType.min, DType.max]

theorem DT.Is.cat {d : DType} {a b : DT} (h : a.Is d) (h' : b.Is d) : (a.cat b).Is d := by
  rcases a with ⟨_ | _, _ | _⟩ <;> rcases b with ⟨_ | _, _ | _⟩ <;> rcases d with _ | _ <;>
    revert h h' <;> simp [DT.Is, DT.cat, DType.min, DType.max]

theorem DT.Is.copyInto {d : DType} {a b : DT} (h : a.Is d) (h' : b.Is d) :
    (a.copyInto b).Is d := by
  rcases a with ⟨_ | _, _ | _⟩ <;> rcases b with ⟨_ | _, _ | _⟩ <;> rcases d with _ | _ <;>
    revert h h' <;> simp [DT.Is, DT.copyInto, DType.min]

theorem DT.Is.addInPlace {d : DType} {a b : DT} (h : a.Is d) (h' : b.Is d) :
    (a.addInPlace b).Is d := h.copyInto h'

theorem DT.Is.contract {d : DType} {a b : DT} (h : a.Is d) (h' : b.Is d) :
    Fine (DT.Is d) (a.contract b) := by
  unfold DT.contract
  rw [if_pos (h.1.trans h'.1.symm)]
  exact h.arith h'

theorem DT.Is.indexPut {d : DType} {a b : DT} (h : a.Is d) (h' : b.Is d) :
    Fine (DT.Is d) (a.indexPut b) := by
  unfold DT.indexPut
  rw [if_pos (h.1.trans h'.1.symm)]
  rcases a with ⟨_ | _, _ | _⟩ <;> rcases b with ⟨_ | _, _ | _⟩ <;> rcases d with _ | _ <;>
    revert h h' <;> simp [Fine, DT.Is, DType.min]

theorem OptIs.need {d : DType} {o : Option DT} (h : OptIs d o) : Fine (DT.Is d) (need o) := by
  cases o with
  | none => simp [Dt.need, Fine]
  | some t => exact h t rfl

theorem SomeIs.opt {d : DType} {o : Option DT} (h : SomeIs d o) : OptIs d o := by
  obtain ⟨t, rfl, ht⟩ := h
  intro s hs
  cases hs
  exact ht

theorem optIs_some {d : DType} {t : DT} (h : t.Is d) : OptIs d (some t) := by
  intro s hs
  cases hs
  exact h

theorem someIs_some {d : DType} {t : DT} (h : t.Is d) : SomeIs d (some t) := ⟨t, rfl, h⟩

theorem optIs_none {d : DType} : OptIs d none := by
  intro s hs
  cases hs

theorem OptIs.getD {d : DType} {o : Option DT} (h : OptIs d o) {t : DT} (ht : t.Is d) :
    (o.getD t).Is d := by
  cases o with
  | none => exact ht
  | some s => exact h s rfl

theorem is_ite {d : DType} {c : Prop} [Decidable c] {a b : DT} (h : a.Is d) (h' : b.Is d) :
    (if c then a else b).Is d := by
  split
  · exact h
  · exact h'

theorem is_P {d : DType} {e : Env} {i : Nat} (h : e.par i = d) : (e.P i).Is d := by
  subst h
  exact is_const _

theorem addBias_fine {d : DType} {e : Env} {y : DT} {b : Option Nat} (hy : y.Is d)
    (hb : ∀ i ∈ b, e.par i = d) : Fine (DT.Is d) (addBias e y b) := by
  cases b with
  | none => exact hy
  | some i => exact hy.contract (is_P (hb i rfl))

/-- The parameters of a layer. -/
def Leaf.params : Leaf → List Nat
  | .linear w b => w :: b.toList
  | .conv w b _ => w :: b.toList
  | _ => []

theorem Leaf.fwd_fine {d : DType} {e : Env} {l : Leaf} (hp : ∀ i ∈ l.params, e.par i = d)
    {x : DT} (hx : x.Is d) : Fine (DT.Is d) (l.fwd e x) := by
  cases l with
  | linear w b =>
      refine (hx.contract (is_P (hp w (by simp [Leaf.params])))).bind fun y hy => ?_
      exact addBias_fine hy fun i hi => hp i (by simp [Leaf.params, Option.mem_def.1 hi])
  | conv w b v =>
      refine (hx.contract (is_P (hp w (by simp [Leaf.params])))).bind fun y hy => ?_
      exact addBias_fine hy fun i hi => hp i (by simp [Leaf.params, Option.mem_def.1 hi])
  | act k => exact hx.unary
  | reshape => exact hx
  | l2norm => exact hx.unary.arith hx
  | pool => exact hx
  | upsample => exact hx

theorem Leaf.valOr_fine {d : DType} {e : Env} {l : Leaf} (hp : ∀ i ∈ l.params, e.par i = d)
    {x : DT} (hx : x.Is d) {val : Option DT} (hv : OptIs d val) :
    Fine (DT.Is d) (l.valOr e x val) := by
  cases val with
  | none => exact l.fwd_fine hp hx
  | some v => exact hv v rfl

section Leaves
variable {d : DType} {e : Env}

theorem linVjp_in {w : Nat} {b : Option Nat} (hw : e.par w = d) {x v : DT} (hv : v.Is d) :
    Fine (SomeIs d) (linVjp e w b x v .input) :=
  (hv.contract (is_P hw)).bind fun _ h => someIs_some h

theorem linVjp_w {w : Nat} {b : Option Nat} {x v : DT} (hx : x.Is d) (hv : v.Is d) :
    Fine (SomeIs d) (linVjp e w b x v .weight) :=
  someIs_some (is_ite ((hv.arith hx).cat hv) (hv.arith hx))

theorem linJvp_in {w : Nat} {b : Option Nat} (hw : e.par w = d) {x v : DT} {val : Option DT}
    (hv : v.Is d) : Fine (SomeIs d) (linJvp e w b x val v .input) :=
  ((is_P hw).contract hv).bind fun _ h => someIs_some h

theorem linJvp_w {w : Nat} {b : Option Nat} (hp : ∀ i ∈ (Leaf.linear w b).params, e.par i = d)
    {x v : DT} {val : Option DT} (hx : x.Is d) (hval : OptIs d val) (hv : v.Is d) :
    Fine (SomeIs d) (linJvp e w b x val v .weight) := by
  refine (Leaf.valOr_fine hp hx hval).bind fun _ _ => ?_
  refine (hv.contract hx).bind fun r hr => ?_
  exact someIs_some (is_ite (hr.arith hv) hr)

theorem convRows_fine {vm : Bool} (hs : vm = true ∨ e.dflt = d) {x v : DT} (hx : x.Is d)
    (hv : v.Is d) : Fine (DT.Is d) (convRows e vm x v) := by
  refine (hv.contract hx).bind fun r hr => ?_
  show (if vm = true then r else _).Is d
  split
  · exact hr
  · rename_i hvm
    have hd : e.dflt = d := hs.resolve_left hvm
    exact DT.Is.copyInto (by rw [hd]; exact is_const d) hr

theorem convVjp_fine {w : Nat} {b : Option Nat} {vm : Bool}
    (hp : ∀ i ∈ (Leaf.conv w b vm).params, e.par i = d) (hs : vm = true ∨ e.dflt = d) {x v : DT}
    {val : Option DT} (hx : x.Is d) (hval : OptIs d val) (hv : v.Is d) {wrt : Wrt}
    (hw : wrt ≠ .other) :
    Fine (SomeIs d) (convVjp e w b vm x val v wrt) := by
  refine (Leaf.valOr_fine hp hx hval).bind fun _ _ => ?_
  cases wrt with
  | input =>
      exact (hv.contract (is_P (hp w (by simp [Leaf.params])))).bind fun _ h => someIs_some h
  | weight =>
      refine (convRows_fine hs hx hv).bind fun r hr => ?_
      exact someIs_some (is_ite (hr.cat hv.unary) hr)
  | other => exact absurd rfl hw

theorem actDiag_fine {k : Bool} {x : DT} {val : Option DT} (hx : x.Is d) (hval : OptIs d val) :
    Fine (SomeIs d) (actDiag k x val .input) :=
  someIs_some (is_ite (hval.getD hx.unary).unary hx.unary)

theorem actProd_fine {k : Bool} {x v : DT} {val : Option DT} (hx : x.Is d) (hval : OptIs d val)
    (hv : v.Is d) : Fine (SomeIs d) (actProd k x val v .input) := by
  refine (actDiag_fine hx hval).bind fun o ho => ?_
  obtain ⟨t, rfl, ht⟩ := ho
  exact someIs_some (ht.arith hv)

theorem actMetric_fine {k : Bool} {x : DT} {m val : Option DT} (hx : x.Is d) (hval : OptIs d val)
    (hm : OptIs d m) : Fine (SomeIs d) (actMetric k x val m .input) := by
  refine (actDiag_fine hx hval).bind fun o ho => ?_
  obtain ⟨t, rfl, ht⟩ := ho
  refine someIs_some ((ht.arith (hm.getD ?_)).arith ht)
  rw [hx.1]
  exact is_const d

theorem l2Jacobian_fine {x : DT} (hs : e.dflt.max d = d) (hx : x.Is d) :
    Fine (SomeIs d) (l2Jacobian e x .input) := by
  refine someIs_some (hx.unary.arith ?_)
  have h := ((hx.unary.arith hx).arith (hx.unary.arith hx))
  revert h
  generalize (x.unary.arith x).arith (x.unary.arith x) = y
  revert hs
  rcases e.dflt with _ | _ <;> rcases d with _ | _ <;> rcases y with ⟨_ | _, _ | _⟩ <;>
    simp [DT.Is, DT.arith, DT.const, DType.min, DType.max]

theorem l2Prod_fine {x v : DT} (hs : e.dflt.max d = d) (hx : x.Is d) (hv : v.Is d) :
    Fine (SomeIs d) (l2Prod e x v .input) := by
  refine (l2Jacobian_fine hs hx).bind fun o ho => ?_
  obtain ⟨t, rfl, ht⟩ := ho
  exact (ht.contract hv).bind fun _ h => someIs_some h

theorem l2Metric_fine {x : DT} {m : Option DT} (hs : e.dflt.max d = d) (hx : x.Is d)
    (hm : OptIs d m) : Fine (SomeIs d) (l2Metric e x m .input) := by
  refine (l2Jacobian_fine hs hx).bind fun o ho => ?_
  obtain ⟨t, rfl, ht⟩ := ho
  refine hm.need.bind fun m hm => ?_
  refine (ht.contract hm).bind fun r hr => ?_
  exact (hr.contract ht).bind fun _ h => someIs_some h

/-- `wrt` as a demand on the result: a tensor for the input. -/
def Res1 (d : DType) : Wrt → Option DT → Prop
  | .input => SomeIs d
  | _ => OptIs d

theorem Res1.opt {wrt : Wrt} {o : Option DT} (h : Res1 d wrt o) : OptIs d o := by
  cases wrt with
  | input => exact SomeIs.opt h
  | weight => exact h
  | other => exact h

theorem res1_of_some {wrt : Wrt} {o : Option DT} (h : SomeIs d o) : Res1 d wrt o := by
  cases wrt with
  | input => exact h
  | weight => exact h.opt
  | other => exact h.opt

theorem fine_res1 {wrt : Wrt} {r : DRes (Option DT)} (h : Fine (SomeIs d) r) :
    Fine (Res1 d wrt) r := h.mono fun _ => res1_of_some

variable {l : Leaf} (hp : ∀ i ∈ l.params, e.par i = d) (hs : l.Safe e.dflt d)
include hp hs

theorem Leaf.vjp_fine {x v : DT} {val : Option DT} (hx : x.Is d) (hval : OptIs d val)
    (hv : v.Is d) (wrt : Wrt) : Fine (Res1 d wrt) (l.vjp e x val v wrt) := by
  cases wrt with
  | input =>
      cases l with
      | linear w b => exact linVjp_in (b := b) (x := x) (hp w (by simp [Leaf.params])) hv
      | conv w b vm => exact convVjp_fine hp hs hx hval hv (wrt := .input) (by simp)
      | act k => exact actProd_fine hx hval hv
      | reshape => exact someIs_some hv
      | l2norm => exact l2Prod_fine hs hx hv
      | pool =>
          have hd : e.dflt = d := hs
          exact (DT.Is.indexPut (by rw [hd]; exact is_const d) hv).bind fun _ h => someIs_some h
      | upsample =>
          have hd : e.dflt = d := hs
          exact (hv.contract (by rw [hd]; exact is_const d)).bind fun _ h => someIs_some h
  | weight =>
      cases l with
      | linear w b => exact (linVjp_w (e := e) (w := w) (b := b) hx hv).mono fun _ => SomeIs.opt
      | conv w b vm => exact fine_res1 (convVjp_fine hp hs hx hval hv (wrt := .weight) (by simp))
      | act k => exact optIs_none
      | reshape => exact optIs_none
      | l2norm => exact optIs_none
      | pool => exact optIs_none
      | upsample => exact optIs_none
  | other =>
      cases l with
      | linear w b => exact optIs_none
      | conv w b vm =>
          exact (Leaf.valOr_fine hp hx hval).bind fun _ _ => optIs_none
      | act k => exact optIs_none
      | reshape => exact optIs_none
      | l2norm => exact optIs_none
      | pool => exact optIs_none
      | upsample => exact optIs_none

theorem Leaf.jvp_fine {x v : DT} {val : Option DT} (hx : x.Is d) (hval : OptIs d val)
    (hv : v.Is d) (wrt : Wrt) : Fine (Res1 d wrt) (l.jvp e x val v wrt) := by
  cases wrt with
  | input =>
      cases l with
      | linear w b => exact linJvp_in (b := b) (x := x) (val := val) (hp w (by simp [Leaf.params])) hv
      | conv w b vm => exact DErr.noConfusion
      | act k => exact actProd_fine hx hval hv
      | reshape => exact someIs_some hv
      | l2norm => exact l2Prod_fine hs hx hv
      | pool => exact DErr.noConfusion
      | upsample => exact DErr.noConfusion
  | weight =>
      cases l with
      | linear w b => exact fine_res1 (linJvp_w hp hx hval hv)
      | conv w b vm => exact DErr.noConfusion
      | act k => exact optIs_none
      | reshape => exact optIs_none
      | l2norm => exact optIs_none
      | pool => exact optIs_none
      | upsample => exact optIs_none
  | other => cases l <;> exact optIs_none

theorem Leaf.jmp_fine {x v : DT} {val : Option DT} (hx : x.Is d) (hval : OptIs d val)
    (hv : v.Is d) (wrt : Wrt) : Fine (Res1 d wrt) (l.jmp e x val (some v) wrt) := by
  cases l with
  | linear w b => exact Leaf.jvp_fine hp hs hx hval hv wrt
  | conv w b vm => exact Leaf.jvp_fine hp hs hx hval hv wrt
  | act k => exact Leaf.jvp_fine hp hs hx hval hv wrt
  | reshape => exact Leaf.jvp_fine hp hs hx hval hv wrt
  | l2norm => exact Leaf.jvp_fine hp hs hx hval hv wrt
  | pool =>
      cases wrt with
      | input => exact someIs_some hv
      | weight => exact optIs_none
      | other => exact optIs_none
  | upsample => exact Leaf.jvp_fine hp hs hx hval hv wrt

theorem Leaf.mjp_fine {x v : DT} {val : Option DT} (hx : x.Is d) (hval : OptIs d val)
    (hv : v.Is d) (wrt : Wrt) : Fine (Res1 d wrt) (l.mjp e x val (some v) wrt) := by
  have h := Leaf.vjp_fine hp hs hx hval hv wrt
  cases l <;> exact h

theorem Leaf.jacobian_fine {x : DT} {val : Option DT} (hx : x.Is d) (hval : OptIs d val)
    (wrt : Wrt) (hb : e.dflt = d ∨ (DNet.leaf l).bareConv = false) :
    Fine (Res1 d wrt) (l.jacobian e x val wrt) := by
  cases l with
  | linear w b =>
      cases wrt with
      | input => exact someIs_some (is_P (hp w (by simp [Leaf.params])))
      | weight =>
          refine (Leaf.valOr_fine hp hx hval).bind fun y hy => ?_
          have hc : (DT.const y.ty).Is d := by rw [hy.1]; exact is_const d
          exact optIs_some (is_ite ((hx.arith hc).cat hc) (hx.arith hc))
      | other => exact optIs_none
  | conv w b vm =>
      have hd : e.dflt = d := hb.resolve_right (by simp [DNet.bareConv])
      refine (Leaf.valOr_fine hp hx hval).bind fun y hy => ?_
      exact Leaf.vjp_fine hp hs hx (optIs_some hy) (by rw [hd]; exact is_const d) wrt
  | act k =>
      cases wrt with
      | input => exact actDiag_fine hx hval
      | weight => exact optIs_none
      | other => exact optIs_none
  | reshape =>
      cases wrt with
      | input => exact someIs_some (by rw [hx.1]; exact is_const d)
      | weight => exact optIs_none
      | other => exact optIs_none
  | l2norm =>
      cases wrt with
      | input => exact l2Jacobian_fine hs hx
      | weight => exact optIs_none
      | other => exact optIs_none
  | pool =>
      have hd : e.dflt = d := hs
      cases wrt with
      | input => exact someIs_some (by rw [hd]; exact is_const d)
      | weight => exact optIs_none
      | other => exact optIs_none
  | upsample =>
      have hd : e.dflt = d := hs
      exact Leaf.vjp_fine hp hs hx hval (by rw [hd]; exact is_const d) wrt

theorem Leaf.mjp_none_fine {x : DT} {val : Option DT} (hx : x.Is d) (hval : OptIs d val)
    (wrt : Wrt) (hb : e.dflt = d ∨ (DNet.leaf l).bareConv = false) :
    Fine (Res1 d wrt) (l.mjp e x val none wrt) := by
  have h := Leaf.jacobian_fine hp hs hx hval wrt hb
  cases l with
  | reshape => cases wrt <;> first | exact DErr.noConfusion | exact optIs_none
  | l2norm => cases wrt <;> first | exact DErr.noConfusion | exact optIs_none
  | linear w b => exact h
  | conv w b vm => exact h
  | act k => exact h
  | pool => exact h
  | upsample => exact h

theorem Leaf.jmp_none_fine {x : DT} {val : Option DT} (hx : x.Is d) (hval : OptIs d val)
    (wrt : Wrt) (hb : e.dflt = d ∨ (DNet.leaf l).bareConv = false) :
    Fine (Res1 d wrt) (l.jmp e x val none wrt) := by
  have h := Leaf.mjp_none_fine hp hs hx hval wrt hb
  cases l <;> exact h

theorem Leaf.jTmjp_fine {x : DT} {val m : Option DT} (hx : x.Is d) (hval : OptIs d val)
    (hm : OptIs d m) (wrt : Wrt) (f t : Bool) :
    Fine (Res1 d wrt) (l.jTmjp e x val m wrt f t) := by
  cases l with
  | linear w b =>
      refine (Leaf.valOr_fine hp hx hval).bind fun y hy => ?_
      have hc : (DT.const y.ty).Is d := by rw [hy.1]; exact is_const d
      have hW : (e.P w).Is d := is_P (hp w (by simp [Leaf.params]))
      have hm' := hm.getD hc
      show Fine _ (match wrt, f || m.isNone, t with | _, _, _ => _)
      generalize (f || m.isNone) = f'
      cases wrt with
      | input =>
          refine (hW.contract hm').bind fun r hr => ?_
          exact (hr.contract hW).bind fun _ h => someIs_some h
      | weight =>
          cases t <;> cases f'
          · refine (linVjp_w (w := w) (b := b) hx hm').bind fun o ho => ?_
            refine ho.opt.need.bind fun mj hmj => ?_
            exact fine_res1 (linVjp_w hx hmj)
          · have hB := (hx.arith hx).arith hm'
            have hO := hx.arith hm'
            exact optIs_some (is_ite ((hB.cat hO).cat (hO.cat hm')) hB)
          · have hB := (hx.arith hx).arith hm'
            exact optIs_some (is_ite (hB.cat hm') hB)
          · have hB := (hx.arith hx).arith hm'
            exact optIs_some (is_ite (hB.cat hm') hB)
      | other => cases f' <;> cases t <;> exact optIs_none
  | conv w b vm =>
      refine (Leaf.valOr_fine hp hx hval).bind fun y hy => ?_
      have hc : (DT.const y.ty).Is d := by rw [hy.1]; exact is_const d
      have hW : (e.P w).Is d := is_P (hp w (by simp [Leaf.params]))
      have hm' := hm.getD hc
      have hfull : ∀ wrt, Fine (Res1 d wrt) (convFull e w b vm x y (m.getD (.const y.ty)) wrt) := by
        intro wrt
        cases wrt with
        | input =>
            refine (convVjp_fine hp hs hx (optIs_some hy) hm' (wrt := .input) (by simp)).bind
              fun o ho => ?_
            refine ho.opt.need.bind fun m1 hm1 => ?_
            exact convVjp_fine hp hs hx (optIs_some hy) hm1 (wrt := .input) (by simp)
        | weight =>
            refine (hm'.contract hx).bind fun r hr => ?_
            have h1 : (if b.isSome = true then r.cat (m.getD (.const y.ty)).unary else r).Is d :=
              is_ite (hr.cat hm'.unary) hr
            refine (h1.contract hx).bind fun q hq => ?_
            have h2 := is_ite (c := b.isSome = true) (hq.cat h1.unary) hq
            show OptIs d (some _)
            refine optIs_some ?_
            split
            · exact h2
            · rename_i hvm
              have hd : e.dflt = d := hs.resolve_left hvm
              exact DT.Is.copyInto (by rw [hd]; exact is_const d) h2
        | other => exact optIs_none
      show Fine _ (match wrt, f || m.isNone, t with | _, _, _ => _)
      generalize (f || m.isNone) = f'
      cases wrt with
      | input =>
          cases t <;> cases f'
          · exact hfull .input
          · exact hfull .input
          · exact hfull .input
          · exact (hm'.contract hW.unary).bind fun _ h => someIs_some h
      | weight =>
          cases t <;> cases f'
          · exact hfull .weight
          · exact hfull .weight
          · exact hfull .weight
          · refine (convRows_fine hs hx.unary hm').bind fun r hr => ?_
            exact optIs_some (is_ite (hr.cat hm'.unary) hr)
      | other => cases t <;> cases f' <;> exact hfull .other
  | act k =>
      cases wrt with
      | input => exact actMetric_fine hx hval hm
      | weight => exact optIs_none
      | other => exact optIs_none
  | reshape =>
      cases wrt with
      | input => exact someIs_some (hm.getD (by rw [hx.1]; exact is_const d))
      | weight => exact optIs_none
      | other => exact optIs_none
  | l2norm =>
      cases wrt with
      | input => exact l2Metric_fine hs hx hm
      | weight => exact optIs_none
      | other => exact optIs_none
  | pool =>
      have hd : e.dflt = d := hs
      have hc : (DT.const (val.getD x).ty).Is d := by
        rw [(hval.getD hx).1]; exact is_const d
      have hm' := hm.getD hc
      have hfull : ∀ wrt, Fine (Res1 d wrt) (poolScatter e (m.getD (.const (val.getD x).ty)) wrt) :=
        fun wrt => Leaf.vjp_fine (l := .pool) hp hs hx hval hm' wrt
      unfold Leaf.jTmjp poolJTmjp
      dsimp only
      generalize (f || m.isNone) = f'
      cases wrt with
      | input =>
          cases t <;> cases f'
          · exact hfull .input
          · exact hfull .input
          · exact hfull .input
          · exact (DT.Is.indexPut (by rw [hx.1]; exact is_const d) hm').bind fun _ h => someIs_some h
      | weight => cases t <;> cases f' <;> exact hfull .weight
      | other => cases t <;> cases f' <;> exact hfull .other
  | upsample =>
      have hd : e.dflt = d := hs
      have hc : (DT.const (val.getD x).ty).Is d := by
        rw [(hval.getD hx).1]; exact is_const d
      have hm' := hm.getD hc
      have hone : ∀ v : DT, v.Is d → Fine (SomeIs d) (upSum e v .input) :=
        fun v hv => Leaf.vjp_fine (l := .upsample) hp hs hx hval hv .input
      have htwo : Fine (SomeIs d)
          (do upSum e (← need (← upSum e (m.getD (.const (val.getD x).ty)) .input)) .input) := by
        refine (hone _ hm').bind fun o ho => ?_
        exact ho.opt.need.bind fun r hr => hone r hr
      unfold Leaf.jTmjp upJTmjp
      dsimp only
      generalize (f || m.isNone) = f'
      cases wrt with
      | input =>
          cases t <;> cases f'
          · exact htwo
          · exact htwo
          · exact htwo
          · exact hone _ hm'
      | weight => cases t <;> cases f' <;> exact optIs_none
      | other => cases t <;> cases f' <;> exact optIs_none

theorem Leaf.jmjTp_fine {x : DT} {val m : Option DT} (hx : x.Is d) (hval : OptIs d val)
    (hm : OptIs d m) (wrt : Wrt) (f t : Bool) :
    Fine (Res1 d wrt) (l.jmjTp e x val m wrt f t) := by
  have hc : (DT.const x.ty).Is d := by rw [hx.1]; exact is_const d
  have hm' := hm.getD hc
  cases l with
  | linear w b =>
      have hW : (e.P w).Is d := is_P (hp w (by simp [Leaf.params]))
      refine (Leaf.valOr_fine hp hx hval).bind fun y hy => ?_
      cases wrt with
      | input =>
          refine (hW.contract hm').bind fun r hr => ?_
          exact (hr.contract hW).bind fun _ h => someIs_some h
      | weight =>
          show Fine _ (if (f || m.isNone) = true then _ else _)
          split
          · refine ((hx.arith hx).contract hm').bind fun r hr => ?_
            exact optIs_some (is_ite (hr.arith hm') hr)
          · refine (linJvp_w hp hx (optIs_some hy) hm').bind fun o ho => ?_
            refine ho.opt.need.bind fun jm hjm => ?_
            exact fine_res1 (linJvp_w hp hx (optIs_some hy) hjm)
      | other => exact optIs_none
  | conv w b vm =>
      refine (Leaf.valOr_fine hp hx hval).bind fun _ _ => ?_
      cases wrt with
      | input => exact DErr.noConfusion
      | weight => exact DErr.noConfusion
      | other => exact optIs_none
  | act k =>
      cases wrt with
      | input => exact actMetric_fine hx hval hm
      | weight => exact optIs_none
      | other => exact optIs_none
  | reshape =>
      cases wrt with
      | input => exact someIs_some hm'
      | weight => exact optIs_none
      | other => exact optIs_none
  | l2norm =>
      cases wrt with
      | input => exact l2Metric_fine hs hx hm
      | weight => exact optIs_none
      | other => exact optIs_none
  | pool =>
      cases wrt with
      | input => exact DErr.noConfusion
      | weight => exact optIs_none
      | other => exact optIs_none
  | upsample =>
      cases wrt with
      | input => exact DErr.noConfusion
      | weight => exact optIs_none
      | other => exact optIs_none

end Leaves

end NNJ.Dt
