import Verif.Proofs.DtypeNet

/-!
# Dtypes: the backward methods raise nothing but dtype errors
-/

namespace NNJ.Dt

/-- The call raises nothing but a dtype error; what it returns satisfies `P`. -/
def Only {β : Type} (P : β → Prop) : DRes β → Prop
  | .error err => err = .dtype
  | .ok v => P v

theorem Only.bind {β γ : Type} {P : β → Prop} {Q : γ → Prop} {r : DRes β} {f : β → DRes γ}
    (h : Only P r) (hf : ∀ v, P v → Only Q (f v)) : Only Q (r >>= f) := by
  cases r with
  | error err => exact h
  | ok v => exact hf v h

theorem Only.mono {β : Type} {P Q : β → Prop} {r : DRes β} (h : Only P r)
    (hf : ∀ v, P v → Q v) : Only Q r := by
  cases r with
  | error err => exact h
  | ok v => exact hf v h

/-- Together: the call returns. -/
theorem Only.returns {β : Type} {P Q : β → Prop} {r : DRes β} (h : Only P r) (h' : Fine Q r) :
    ∃ v, r = .ok v ∧ P v ∧ Q v := by
  cases r with
  | error err => exact absurd h h'
  | ok v => exact ⟨v, rfl, h, h'⟩

theorem Only.error {β : Type} {P : β → Prop} {r : DRes β} (h : Only P r) (h' : ∀ v, r ≠ .ok v) :
    r = .error .dtype := by
  cases r with
  | error err => cases h; rfl
  | ok v => exact absurd rfl (h' v)

/-- Anything. -/
abbrev Any {β : Type} : β → Prop := fun _ => True

/-- A tensor is returned, if it is about the input. -/
def Got : Wrt → Option DT → Prop
  | .input, o => o.isSome = true
  | _, _ => True

theorem got_some {wrt : Wrt} {t : DT} : Got wrt (some t) := by cases wrt <;> first | rfl | trivial

theorem only_some {wrt : Wrt} {t : DT} : Only (Got wrt) (.ok (some t) : DRes (Option DT)) := got_some

theorem contract_only (a b : DT) : Only Any (a.contract b) := by
  unfold DT.contract; split <;> first | rfl | trivial

theorem indexPut_only (a b : DT) : Only Any (a.indexPut b) := by
  unfold DT.indexPut; split <;> first | rfl | trivial

theorem need_only {o : Option DT} (h : o.isSome = true) : Only Any (need o) := by
  cases o with
  | none => cases h
  | some t => trivial

theorem addBias_only (e : Env) (y : DT) (b : Option Nat) : Only Any (addBias e y b) := by
  cases b with
  | none => trivial
  | some i => exact contract_only _ _

theorem Leaf.fwd_only (e : Env) (l : Leaf) (x : DT) : Only Any (l.fwd e x) := by
  cases l with
  | linear w b => exact (contract_only _ _).bind fun y _ => addBias_only e y b
  | conv w b v => exact (contract_only _ _).bind fun y _ => addBias_only e y b
  | act k => trivial
  | reshape => trivial
  | l2norm => trivial
  | pool => trivial
  | upsample => trivial

theorem Leaf.valOr_only (e : Env) (l : Leaf) (x : DT) (val : Option DT) :
    Only Any (l.valOr e x val) := by
  cases val with
  | none => exact l.fwd_only e x
  | some v => trivial

mutual
theorem DNet.fwd_only (e : Env) (n : DNet) (x : DT) : Only Any (n.fwd e x) := by
  match n with
  | .leaf l => rw [DNet.fwd]; exact l.fwd_only e x
  | .seq c => rw [DNet.fwd]; exact c.fwd_only e x
  | .skip c => rw [DNet.fwd]; exact (c.fwd_only e x).bind fun _ _ => trivial
theorem DChain.fwd_only (e : Env) (c : DChain) (x : DT) : Only Any (c.fwd e x) := by
  match c with
  | .nil => rw [DChain.fwd]; trivial
  | .cons n c => rw [DChain.fwd]; exact (n.fwd_only e x).bind fun y _ => c.fwd_only e y
end

theorem convRows_only (e : Env) (vm : Bool) (x v : DT) : Only Any (convRows e vm x v) :=
  (contract_only _ _).bind fun _ _ => trivial

theorem convVjp_only (e : Env) (w : Nat) (b : Option Nat) (vm : Bool) (x : DT) (val : Option DT)
    (v : DT) (wrt : Wrt) : Only (Got wrt) (convVjp e w b vm x val v wrt) := by
  refine (Leaf.valOr_only e _ x val).bind fun _ _ => ?_
  cases wrt with
  | input => exact (contract_only _ _).bind fun _ _ => only_some
  | weight => exact (convRows_only _ _ _ _).bind fun _ _ => only_some
  | other => trivial

theorem l2Prod_only (e : Env) (x v : DT) (wrt : Wrt) : Only (Got wrt) (l2Prod e x v wrt) := by
  cases wrt with
  | input => exact (contract_only _ _).bind fun _ _ => only_some
  | weight => trivial
  | other => trivial

theorem Leaf.vjp_only (e : Env) (l : Leaf) (x : DT) (val : Option DT) (v : DT) (wrt : Wrt) :
    Only (Got wrt) (l.vjp e x val v wrt) := by
  cases l with
  | linear w b =>
      cases wrt with
      | input => exact (contract_only _ _).bind fun _ _ => only_some
      | weight => trivial
      | other => trivial
  | conv w b vm => exact convVjp_only _ _ _ _ _ _ _ _
  | act k => cases wrt <;> first | rfl | trivial
  | reshape => cases wrt <;> first | rfl | trivial
  | l2norm => exact l2Prod_only _ _ _ _
  | pool =>
      cases wrt with
      | input => exact (indexPut_only _ _).bind fun _ _ => only_some
      | weight => trivial
      | other => trivial
  | upsample =>
      cases wrt with
      | input => exact (contract_only _ _).bind fun _ _ => only_some
      | weight => trivial
      | other => trivial

theorem Leaf.mjp_only (e : Env) (l : Leaf) (x : DT) (val : Option DT) (v : DT) (wrt : Wrt) :
    Only (Got wrt) (l.mjp e x val (some v) wrt) := by
  have h := l.vjp_only e x val v wrt
  cases l <;> exact h

theorem getD_some {v : DT} {m : Option DT} (h : m = some v) (t : DT) : m.getD t = v := by
  subst h; rfl

mutual
theorem DNet.vjp_only (e : Env) (n : DNet) (x : DT) (val : Option DT) (v : DT) (wrt : Wrt)
    (hw : wrt ≠ .other) : Only (Got wrt) (n.vjp e x val v wrt) := by
  match n with
  | .leaf l => rw [DNet.vjp]; exact l.vjp_only e x val v wrt
  | .seq c => rw [DNet.vjp]; exact c.vjp_only e x v wrt hw
  | .skip c =>
      rw [DNet.vjp]
      refine (c.vjp_only e x v wrt hw).bind fun r hr => ?_
      cases wrt with
      | input => exact (need_only hr).bind fun _ _ => only_some
      | weight => trivial
      | other => trivial
theorem DChain.vjp_only (e : Env) (c : DChain) (x v : DT) (wrt : Wrt) (hw : wrt ≠ .other) :
    Only (Got wrt) (c.vjp e x v wrt) := by
  cases wrt with
  | input => rw [DChain.vjp]; exact (c.vjpIn_only e x v).bind fun _ _ => only_some
  | weight => rw [DChain.vjp]; exact (c.vjpW_only e true x v).bind fun _ _ => trivial
  | other => exact absurd rfl hw
theorem DChain.vjpIn_only (e : Env) (c : DChain) (x v : DT) : Only Any (c.vjpIn e x v) := by
  match c with
  | .nil => rw [DChain.vjpIn]; trivial
  | .cons n c =>
      rw [DChain.vjpIn]
      refine (n.fwd_only e x).bind fun y _ => ?_
      refine (c.vjpIn_only e y v).bind fun v' _ => ?_
      exact (n.vjp_only e x (some y) v' .input (by simp)).bind fun o ho => need_only ho
theorem DChain.vjpW_only (e : Env) (f : Bool) (c : DChain) (x v : DT) :
    Only Any (c.vjpW e f x v) := by
  match c with
  | .nil => rw [DChain.vjpW]; trivial
  | .cons n c =>
      rw [DChain.vjpW]
      refine (n.fwd_only e x).bind fun y _ => ?_
      refine (c.vjpW_only e false y v).bind fun r _ => ?_
      refine (n.vjp_only e x (some y) r.2 .weight (by simp)).bind fun vk _ => ?_
      cases f with
      | true => trivial
      | false =>
          refine (n.vjp_only e x (some y) r.2 .input (by simp)).bind fun o ho => ?_
          exact (need_only ho).bind fun _ _ => trivial
end

mutual
theorem DNet.mjp_only (e : Env) (n : DNet) (x : DT) (val : Option DT) (m : DT) (wrt : Wrt)
    (hw : wrt ≠ .other) : Only (Got wrt) (n.mjp e x val (some m) wrt) := by
  match n with
  | .leaf l => rw [DNet.mjp]; exact l.mjp_only e x val m wrt
  | .seq c => rw [DNet.mjp]; exact c.mjp_only e x (some m) wrt hw
  | .skip c =>
      rw [DNet.mjp]
      refine (c.mjp_only e x (some m) wrt hw).bind fun r hr => ?_
      cases wrt with
      | input => exact (need_only hr).bind fun _ _ => only_some
      | weight => trivial
      | other => trivial
theorem DChain.mjp_only (e : Env) (c : DChain) (x : DT) (m : Option DT) (wrt : Wrt)
    (hw : wrt ≠ .other) : Only (Got wrt) (c.mjp e x m wrt) := by
  cases wrt with
  | input => rw [DChain.mjp]; exact c.mjpIn_only e x _
  | weight => rw [DChain.mjp]; exact (c.mjpW_only e true x _).bind fun _ _ => trivial
  | other => exact absurd rfl hw
theorem DChain.mjpIn_only (e : Env) (c : DChain) (x m : DT) :
    Only (Got .input) (c.mjpIn e x (some m)) := by
  match c with
  | .nil => rw [DChain.mjpIn]; rfl
  | .cons n c =>
      rw [DChain.mjpIn]
      refine (n.fwd_only e x).bind fun y _ => ?_
      refine (c.mjpIn_only e y m).bind fun o ho => ?_
      obtain ⟨m', rfl⟩ := Option.isSome_iff_exists.1 ho
      exact n.mjp_only e x (some y) m' .input (by simp)
theorem DChain.mjpW_only (e : Env) (f : Bool) (c : DChain) (x m : DT) :
    Only (fun r => r.2.isSome = true) (c.mjpW e f x (some m)) := by
  match c with
  | .nil => rw [DChain.mjpW]; rfl
  | .cons n c =>
      rw [DChain.mjpW]
      refine (n.fwd_only e x).bind fun y _ => ?_
      refine (c.mjpW_only e false y m).bind fun r hr => ?_
      obtain ⟨m', hm'⟩ := Option.isSome_iff_exists.1 hr
      rw [hm']
      refine (n.mjp_only e x (some y) m' .weight (by simp)).bind fun vk _ => ?_
      cases f with
      | true => rfl
      | false => exact (n.mjp_only e x (some y) m' .input (by simp)).bind fun o ho => ho
end

theorem convFull_only (e : Env) (w : Nat) (b : Option Nat) (vm : Bool) (x val m : DT) (wrt : Wrt) :
    Only (Got wrt) (convFull e w b vm x val m wrt) := by
  cases wrt with
  | input =>
      refine (convVjp_only e w b vm x (some val) m .input).bind fun o ho => ?_
      exact (need_only ho).bind fun m1 _ => convVjp_only e w b vm x (some val) m1 .input
  | weight =>
      refine (contract_only _ _).bind fun r _ => ?_
      exact (contract_only _ _).bind fun r' _ => trivial
  | other => trivial

theorem upSum_only (e : Env) (v : DT) (wrt : Wrt) : Only (Got wrt) (upSum e v wrt) := by
  cases wrt with
  | input => exact (contract_only _ _).bind fun _ _ => only_some
  | weight => trivial
  | other => trivial

theorem poolScatter_only (e : Env) (v : DT) (wrt : Wrt) : Only (Got wrt) (poolScatter e v wrt) := by
  cases wrt with
  | input => exact (indexPut_only _ _).bind fun _ _ => only_some
  | weight => trivial
  | other => trivial

theorem Leaf.jTmjp_only (e : Env) (l : Leaf) (x : DT) (val : Option DT) (m : DT) (wrt : Wrt)
    (f t : Bool) : Only (Got wrt) (l.jTmjp e x val (some m) wrt f t) := by
  cases l with
  | linear w b =>
      refine (Leaf.valOr_only e _ x val).bind fun y _ => ?_
      cases wrt with
      | input =>
          refine (contract_only _ _).bind fun r _ => ?_
          exact (contract_only _ _).bind fun _ _ => only_some
      | weight => cases f <;> cases t <;> trivial
      | other => cases f <;> cases t <;> trivial
  | conv w b vm =>
      refine (Leaf.valOr_only e _ x val).bind fun y _ => ?_
      have h := fun wrt => convFull_only e w b vm x y m wrt
      cases wrt with
      | input =>
          cases f <;> cases t
          · exact h .input
          · exact h .input
          · exact h .input
          · exact (contract_only _ _).bind fun _ _ => only_some
      | weight =>
          cases f <;> cases t
          · exact h .weight
          · exact h .weight
          · exact h .weight
          · exact (convRows_only _ _ _ _).bind fun _ _ => only_some
      | other => cases f <;> cases t <;> exact h .other
  | act k => cases wrt <;> first | rfl | trivial
  | reshape => cases wrt <;> first | rfl | trivial
  | l2norm =>
      cases wrt with
      | input =>
          refine (contract_only _ _).bind fun r _ => ?_
          exact (contract_only _ _).bind fun _ _ => only_some
      | weight => trivial
      | other => trivial
  | pool =>
      cases wrt with
      | input =>
          cases f <;> cases t
          · exact poolScatter_only e m .input
          · exact poolScatter_only e m .input
          · exact poolScatter_only e m .input
          · exact (indexPut_only _ _).bind fun _ _ => only_some
      | weight => cases f <;> cases t <;> trivial
      | other => cases f <;> cases t <;> trivial
  | upsample =>
      have h2 : Only (Got .input) (do upSum e (← need (← upSum e m .input)) .input) := by
        refine (upSum_only e m .input).bind fun o ho => ?_
        exact (need_only ho).bind fun v _ => upSum_only e v .input
      cases wrt with
      | input =>
          cases f <;> cases t
          · exact h2
          · exact h2
          · exact h2
          · exact upSum_only e m .input
      | weight => cases f <;> cases t <;> trivial
      | other => cases f <;> cases t <;> trivial

/-- The flags pass the assertion of nnj/sequential.py:305. -/
def FlagsOk (f t db : Bool) : Prop := db = false ∨ (f = true ∧ t = true)

theorem checkFlags_only {f t db : Bool} (h : FlagsOk f t db) : Only Any (checkFlags f t db) := by
  unfold checkFlags
  rcases h with rfl | ⟨rfl, rfl⟩
  · trivial
  · simp [Only, Any]

/-- One tensor is returned, if it is about the input. -/
def GotJT : Wrt → JT → Prop
  | .input, r => ∃ t, r = .one t
  | _, _ => True

theorem gotJT_ofOpt {wrt : Wrt} {o : Option DT} (h : Got wrt o) : GotJT wrt (.ofOpt o) := by
  cases wrt with
  | input => obtain ⟨t, rfl⟩ := Option.isSome_iff_exists.1 h; exact ⟨t, rfl⟩
  | weight => trivial
  | other => trivial

theorem gotJT_toOpt {r : JT} (h : GotJT .input r) : Only (Got .input) r.toOpt := by
  obtain ⟨t, rfl⟩ := h
  rfl

theorem flagsOk_inner {f t db : Bool} (h : FlagsOk f t db) (a b : Bool) :
    FlagsOk (if a then f else db) (if b then t else db) db := by
  rcases h with rfl | ⟨rfl, rfl⟩
  · exact .inl rfl
  · cases db with
    | false => exact .inl rfl
    | true => exact .inr ⟨by cases a <;> rfl, by cases b <;> rfl⟩

mutual
theorem DNet.jTmjp_only (e : Env) (n : DNet) (x : DT) (val : Option DT) (m : DT) (wrt : Wrt)
    (f t db : Bool) (hf : FlagsOk f t db) (hw : wrt ≠ .other) :
    Only (GotJT wrt) (n.jTmjp e x val (some m) wrt f t db) := by
  match n with
  | .leaf l =>
      rw [DNet.jTmjp]
      exact (l.jTmjp_only e x val m wrt f t).bind fun o ho => gotJT_ofOpt ho
  | .seq c => rw [DNet.jTmjp]; exact c.jTmjp_only e x (some m) wrt f t db hf hw
  | .skip c =>
      rw [DNet.jTmjp.eq_def]
      dsimp only
      refine (checkFlags_only hf).bind fun _ _ => ?_
      have hv : Only Any (match val with
        | some v => .ok v
        | none => (DNet.skip c).fwd e x : DRes DT) := by
        cases val with
        | none => exact DNet.fwd_only e (.skip c) x
        | some v => trivial
      refine hv.bind fun y _ => ?_
      have hf' : (f || (some m : Option DT).isNone) = f := by simp
      rw [hf']
      refine (c.jTmjp_only e x (some m) wrt f t db hf hw).bind fun r hr => ?_
      have hm := c.mjp_only e x (some m)
      cases wrt with
      | input =>
          cases f
          · refine (hm .input (by simp)).bind fun o ho => ?_
            refine (need_only ho).bind fun mj _ => ?_
            refine (hm .input (by simp)).bind fun o ho => ?_
            refine (need_only ho).bind fun jm _ => ?_
            refine (gotJT_toOpt hr).bind fun o ho => ?_
            exact (need_only ho).bind fun s _ => ⟨_, rfl⟩
          · refine (gotJT_toOpt hr).bind fun o ho => ?_
            exact (need_only ho).bind fun s _ => ⟨_, rfl⟩
      | weight => cases f <;> trivial
      | other => exact absurd rfl hw
theorem DChain.jTmjp_only (e : Env) (c : DChain) (x : DT) (m : Option DT) (wrt : Wrt)
    (f t db : Bool) (hf : FlagsOk f t db) (hw : wrt ≠ .other) :
    Only (GotJT wrt) (c.jTmjp e x m wrt f t db) := by
  rw [DChain.jTmjp]
  refine (checkFlags_only hf).bind fun _ _ => ?_
  have hf' : FlagsOk (f || m.isNone) t db := by
    rcases hf with h | ⟨h, h'⟩
    · exact .inl h
    · exact .inr ⟨by rw [h]; rfl, h'⟩
  cases wrt with
  | input => exact (c.jTIn_only e true x _ _ t db hf').bind fun o ho => gotJT_ofOpt ho
  | weight =>
      refine (c.jTW_only e true x _ _ t db hf').bind fun r _ => ?_
      split
      · trivial
      · split <;> trivial
  | other => exact absurd rfl hw
theorem DChain.jTIn_only (e : Env) (first : Bool) (c : DChain) (x m : DT) (f t db : Bool)
    (hf : FlagsOk f t db) : Only (Got .input) (c.jTIn e first x (some m) f t db) := by
  match c with
  | .nil => rw [DChain.jTIn]; rfl
  | .cons n c =>
      rw [DChain.jTIn]
      refine (n.fwd_only e x).bind fun y _ => ?_
      refine (c.jTIn_only e false y m f t db hf).bind fun o ho => ?_
      obtain ⟨m', rfl⟩ := Option.isSome_iff_exists.1 ho
      exact (n.jTmjp_only e x (some y) m' .input _ _ db (flagsOk_inner hf _ _) (by simp)).bind
        fun r hr => gotJT_toOpt hr
theorem DChain.jTW_only (e : Env) (first : Bool) (c : DChain) (x m : DT) (f t db : Bool)
    (hf : FlagsOk f t db) :
    Only (fun r => r.2.isSome = true) (c.jTW e first x (some m) f t db) := by
  match c with
  | .nil => rw [DChain.jTW]; rfl
  | .cons n c =>
      rw [DChain.jTW]
      refine (n.fwd_only e x).bind fun y _ => ?_
      refine (c.jTW_only e false y m f t db hf).bind fun r hr => ?_
      obtain ⟨m', hm'⟩ := Option.isSome_iff_exists.1 hr
      rw [hm']
      have h1 := flagsOk_inner hf c.isNil true
      have h2 := flagsOk_inner hf c.isNil false
      simp only [if_true, Bool.false_eq_true, if_false] at h1 h2
      refine (n.jTmjp_only e x (some y) m' .weight _ _ db h1 (by simp)).bind fun vk _ => ?_
      cases first with
      | true => rfl
      | false =>
          refine (n.jTmjp_only e x (some y) m' .input _ _ db h2 (by simp)).bind fun r hr => ?_
          exact (gotJT_toOpt hr).bind fun o ho => ho
end

end NNJ.Dt
