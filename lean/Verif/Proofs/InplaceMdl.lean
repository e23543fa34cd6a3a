import Verif.Proofs.InplaceSem

/-! The network whose layers compute `relu ∘ layer` where their output is overwritten: its contract, and its methods are those of the network itself. -/

namespace NNJ
open Tensor Matrix

/-- The reverse-mode methods look at nothing but the shape of `val`. -/
structure ShapeOnly (m : Mod ℝ) : Prop where
  vjp : ∀ {x v v' u wrt}, v.shape = v'.shape → m.vjp x (some v) u wrt = m.vjp x (some v') u wrt
  mjp : ∀ {x v v' A wrt}, v.shape = v'.shape → m.mjp x (some v) (some A) wrt = m.mjp x (some v') (some A) wrt
  jTmjp : ∀ {x v v' A wrt fd td db}, v.shape = v'.shape → m.jTmjp x (some v) A wrt fd td db = m.jTmjp x (some v') A wrt fd td db

/-- the reverse-mode methods are the same when `val` is given -/
structure SameBack (m m' : Mod ℝ) : Prop where
  vjp : ∀ x v u wrt, m'.vjp x (some v) u wrt = m.vjp x (some v) u wrt
  mjp : ∀ x v A wrt, m'.mjp x (some v) (some A) wrt = m.mjp x (some v) (some A) wrt
  jTmjp : ∀ x v A wrt fd td db, m'.jTmjp x (some v) A wrt fd td db = m.jTmjp x (some v) A wrt fd td db

theorem SameBack.refl (m : Mod ℝ) : SameBack m m := ⟨fun _ _ _ _ => rfl, fun _ _ _ _ => rfl, fun _ _ _ _ _ _ _ => rfl⟩

/-- forward pass followed by a ReLU -/
noncomputable def Mod.post (m : Mod ℝ) : Mod ℝ :=
  { m with forward := fun x => do
      let v ← m.forward x
      pure (v.map fun a => max a 0) }

section post
variable {sI sO : List Nat} {n k p : Nat}

noncomputable def Mdl.post (M : Mdl sI n sO k p) : Mdl sI n sO k p :=
  { M with m := M.m.post, S := M.S.post, fwdI := False, fwdW := False, pushW := False, anyVal := False }

variable {M : Mdl sI n sO k p} {s : Store ℝ} {B : Nat} {X : Fin B → Fin n → ℝ} {β : Type} {call : Option (Tensor ℝ) → Prog ℝ β} {P : β → Prop}

/-- a tensor with these entries -/
theorem exists_batch (hs : size sO = k) (Y : Fin B → Fin k → ℝ) (hk : 0 < k) : ∃ t : Tensor ℝ, IsBatch t B sO k Y := by
  refine ⟨⟨B :: sO, fun j => if h : j / k < B ∧ j % k < k then Y ⟨j / k, h.1⟩ ⟨j % k, h.2⟩ else 0⟩, rfl, fun b i => ?_⟩
  have h1 : (b.val * k + i.val) / k = b := by
    rw [Nat.add_comm, Nat.add_mul_div_right _ _ hk, Nat.div_eq_of_lt i.2, Nat.zero_add]
  have h2 : (b.val * k + i.val) % k = i := by
    rw [Nat.add_comm, Nat.add_mul_mod_self_right, Nat.mod_eq_of_lt i.2]
  simp only [h1, h2]
  rw [dif_pos ⟨b.2, i.2⟩]

theorem Back.post (hs : size sO = k) (hk : 0 < k) (hc : ∀ {v v' : Tensor ℝ}, v.shape = v'.shape → call (some v) = call (some v'))
    (h : M.Back s X call P) : M.post.Back s X call P := by
  refine ⟨fun v hv hca => ?_, h.2⟩
  obtain ⟨t, ht⟩ := exists_batch hs (M.Y s X) hk
  have hv' := hv.resolve_left fun h => h
  rw [hc (v' := t) (by rw [hv'.1, ht.1])]
  exact h.1 t (Or.inr ht) hca

theorem BackW.post (hs : size sO = k) (hk : 0 < k) (hc : ∀ {v v' : Tensor ℝ}, v.shape = v'.shape → call (some v) = call (some v'))
    (h : M.BackW s X call P) : M.post.BackW s X call P := by
  refine ⟨fun v hv hca => ?_, h.2⟩
  obtain ⟨t, ht⟩ := exists_batch hs (M.Y s X) hk
  have hv' := hv.resolve_left fun h => h
  rw [hc (v' := t) (by rw [hv'.1, ht.1])]
  exact h.1 t (Or.inr ht) hca

theorem good_post (h : Good M) (hm : ShapeOnly M.m) : Good M.post :=
  { hn := h.hn, hk := h.hk, npos := h.npos, kpos := h.kpos, id_mem := h.id_mem, wired_of := h.wired_of, w_of := h.w_of, cache_frame := h.cache_frame
    forward := @fun s B X x hw hB hx => by
      refine (h.forward hw hB hx).bind fun v s' ⟨hv, hst, hc⟩ => Run.pure ⟨?_, hst, hc⟩
      exact (hv.map _).congr fun b i => rfl
    jacI := fun hw hB hx => h.jacI hw hB hx
    vjpI := fun hw hB hx hu => Back.post h.hk h.kpos hm.vjp (h.vjpI hw hB hx hu)
    mjpI := fun hw hB hx hr hA => Back.post h.hk h.kpos hm.mjp (h.mjpI hw hB hx hr hA)
    jTI := fun fd td hw hB hx hA => Back.post h.hk h.kpos hm.jTmjp (h.jTI fd td hw hB hx hA)
    jTIdb := fun hw hB hx hA => Back.post h.hk h.kpos hm.jTmjp (h.jTIdb hw hB hx hA)
    nParams := h.nParams, arg_of_metric := h.arg_of_metric, arg_of_blocks := h.arg_of_blocks, blocks_ne := h.blocks_ne, mask_diag := h.mask_diag
    jacW := fun hw hB hx hp => h.jacW hw hB hx (Or.inl (hp.resolve_right fun h => h))
    vjpW := fun hw hB hx hu => BackW.post h.hk h.kpos hm.vjp (h.vjpW hw hB hx hu)
    mjpW := fun hw hB hx hr hA => BackW.post h.hk h.kpos hm.mjp (h.mjpW hw hB hx hr hA)
    jTWd := fun fd hw hB hx hA => Back.post h.hk h.kpos hm.jTmjp (h.jTWd fd hw hB hx hA)
    jTWdb := fun hw hB hx hA => Back.post h.hk h.kpos hm.jTmjp (h.jTWdb hw hB hx hA)
    jTWf := fun fd hw hB hx hA => Back.post h.hk h.kpos hm.jTmjp (h.jTWf fd hw hB hx hA)
    jvpI := fun h => h.elim
    jvpW := fun h => h.elim
    jmpI := fun h => h.elim
    jmpW := fun h => h.elim
    jmjI := fun h => h.elim
    jmjIdb := fun h => h.elim
    jmjW := fun h => h.elim
    jmjWdb := fun h => h.elim }

end post

/-! ### layers that look only at the shape of `val` -/

theorem ShapeOnly.of {m : Mod ℝ} (h1 : ∀ x s d d' u wrt, m.vjp x (some ⟨s, d⟩) u wrt = m.vjp x (some ⟨s, d'⟩) u wrt)
    (h2 : ∀ x s d d' A wrt, m.mjp x (some ⟨s, d⟩) (some A) wrt = m.mjp x (some ⟨s, d'⟩) (some A) wrt)
    (h3 : ∀ x s d d' A wrt fd td db, m.jTmjp x (some ⟨s, d⟩) A wrt fd td db = m.jTmjp x (some ⟨s, d'⟩) A wrt fd td db) : ShapeOnly m := by
  constructor
  · rintro x ⟨s, d⟩ ⟨s', d'⟩ u wrt h; cases h; exact h1 ..
  · rintro x ⟨s, d⟩ ⟨s', d'⟩ u wrt h; cases h; exact h2 ..
  · rintro x ⟨s, d⟩ ⟨s', d'⟩ u wrt fd td db h; cases h; exact h3 ..

theorem shapeOnly_linear (id wId : Nat) (bId : Option Nat) (i o : Nat) : ShapeOnly (Linear.mod (α := ℝ) id wId bId i o) :=
  .of (fun _ _ _ _ _ _ => rfl) (fun _ _ _ _ _ _ => rfl) fun _ _ _ _ _ _ _ _ _ => rfl

theorem shapeOnly_l2 (eps : ℝ) (id : Nat) : ShapeOnly (L2Norm.mod eps id) :=
  .of (fun _ _ _ _ _ _ => rfl) (fun _ _ _ _ _ _ => rfl) fun _ _ _ _ _ _ _ _ _ => rfl

theorem shapeOnly_conv (cfg : Conv2d.Cfg) (id wId bId : Nat) : ShapeOnly (Conv2d.mod (α := ℝ) cfg id wId bId) :=
  .of (fun _ _ _ _ _ _ => rfl) (fun _ _ _ _ _ _ => rfl) fun _ _ _ _ _ _ _ _ _ => rfl

theorem shapeOnly_upsample (f : Upsample.Scale) (id : Nat) : ShapeOnly (Upsample.mod (α := ℝ) f id) :=
  .of (fun _ _ _ _ _ _ => rfl) (fun _ _ _ _ _ _ => rfl) fun _ _ _ _ _ _ _ _ _ => rfl

theorem shapeOnly_pool (a : Torch.PoolArgs) (id : Nat) : ShapeOnly (MaxPool2d.mod (α := ℝ) a id) :=
  .of (fun _ _ _ _ _ _ => rfl) (fun _ _ _ _ _ _ => rfl) fun _ _ _ _ _ _ _ _ _ => rfl

/-! ### containers -/

/-- the reverse-mode methods are the same when `val`s of one shape are given -/
structure ShapeBack (m m' : Mod ℝ) : Prop where
  vjp : ∀ {x v v' u wrt}, v.shape = v'.shape → m'.vjp x (some v') u wrt = m.vjp x (some v) u wrt
  mjp : ∀ {x v v' A wrt}, v.shape = v'.shape → m'.mjp x (some v') (some A) wrt = m.mjp x (some v) (some A) wrt
  jTmjp : ∀ {x v v' A wrt fd td db}, v.shape = v'.shape → m'.jTmjp x (some v') A wrt fd td db = m.jTmjp x (some v) A wrt fd td db

theorem ShapeBack.same {m m' : Mod ℝ} (h : ShapeBack m m') : SameBack m m' :=
  ⟨fun _ _ _ _ => h.vjp rfl, fun _ _ _ _ => h.mjp rfl, fun _ _ _ _ _ _ _ => h.jTmjp rfl⟩

theorem ShapeBack.shapeOnly {m : Mod ℝ} (h : ShapeBack m m) : ShapeOnly m :=
  ⟨fun e => h.vjp e.symm, fun e => h.mjp e.symm, fun e => h.jTmjp e.symm⟩

section seq
variable {q : Nat} {ms ms' : List (Mod ℝ)} {β : Type}

theorem child_bind (h : List.Forall₂ SameBack ms ms') {k : Nat} {f f' : Mod ℝ → Prog ℝ β} (hf : ∀ m m', SameBack m m' → f' m' = f m) :
    (Sequential.child ms' k >>= f') = (Sequential.child ms k >>= f) := by
  funext s
  show Prog.bind (Sequential.child ms' k) f' s = Prog.bind (Sequential.child ms k) f s
  simp only [Prog.bind, Sequential.child]
  have hl := h.length_eq
  by_cases hk : k < ms.length
  · have hk' : k < ms'.length := hl ▸ hk
    rw [List.getElem?_eq_getElem hk, List.getElem?_eq_getElem hk']
    exact congrFun (hf _ _ (List.forall₂_iff_get.1 h |>.2 k hk hk')) s
  · have hk' : ¬ k < ms'.length := hl ▸ hk
    rw [List.getElem?_eq_none (not_lt.1 hk), List.getElem?_eq_none (not_lt.1 hk')]

theorem same_vjpInput (h : List.Forall₂ SameBack ms ms') (k : Nat) (u : Tensor ℝ) : Sequential.vjpInput q ms' k u = Sequential.vjpInput q ms k u := by
  induction k generalizing u with
  | zero => rfl
  | succ k ih =>
    refine child_bind h fun m m' hm => ?_
    simp only [hm.vjp, ih]

theorem same_vjpWeight (h : List.Forall₂ SameBack ms ms') (k : Nat) (u : Tensor ℝ) (vs : List (Tensor ℝ)) :
    Sequential.vjpWeight q ms' k u vs = Sequential.vjpWeight q ms k u vs := by
  induction k generalizing u vs with
  | zero => rfl
  | succ k ih =>
    refine child_bind h fun m m' hm => ?_
    simp only [hm.vjp, ih]

theorem same_mjpInput (h : List.Forall₂ SameBack ms ms') (k : Nat) (u : Tensor ℝ) : Sequential.mjpInput q ms' k u = Sequential.mjpInput q ms k u := by
  induction k generalizing u with
  | zero => rfl
  | succ k ih =>
    refine child_bind h fun m m' hm => ?_
    simp only [hm.mjp, ih]

theorem same_mjpWeight (h : List.Forall₂ SameBack ms ms') (k : Nat) (u : Tensor ℝ) (vs : List (Tensor ℝ)) :
    Sequential.mjpWeight q ms' k u vs = Sequential.mjpWeight q ms k u vs := by
  induction k generalizing u vs with
  | zero => rfl
  | succ k ih =>
    refine child_bind h fun m m' hm => ?_
    simp only [hm.mjp, ih]

theorem same_jTmjpInput (h : List.Forall₂ SameBack ms ms') {n : Nat} {fd td db : Bool} (k : Nat) (A : Option (Tensor ℝ)) :
    Sequential.jTmjpInput q n ms' fd td db k A = Sequential.jTmjpInput q n ms fd td db k A := by
  induction k generalizing A with
  | zero => rfl
  | succ k ih =>
    refine child_bind h fun m m' hm => ?_
    simp only [hm.jTmjp, ih]

theorem same_jTmjpWeight (h : List.Forall₂ SameBack ms ms') {n : Nat} {fd td db : Bool} (k : Nat) (A : Option (Tensor ℝ)) (vs : List (PyVal ℝ)) :
    Sequential.jTmjpWeight q n ms' fd td db k A vs = Sequential.jTmjpWeight q n ms fd td db k A vs := by
  induction k generalizing A vs with
  | zero => rfl
  | succ k ih =>
    refine child_bind h fun m m' hm => ?_
    simp only [hm.jTmjp, ih]

theorem ShapeBack.seq (h : List.Forall₂ SameBack ms ms') : ShapeBack (Sequential.mod q true ms) (Sequential.mod q true ms') := by
  have hl := h.length_eq
  refine ⟨fun {x v v' u wrt} _ => ?_, fun {x v v' A wrt} _ => ?_, fun {x v v' A wrt fd td db} e => ?_⟩
  · show Sequential.vjp q true ms' x (some v') u wrt = Sequential.vjp q true ms x (some v) u wrt
    simp only [Sequential.vjp, Sequential.getVal, same_vjpInput h, same_vjpWeight h, hl]
    rfl
  · show Sequential.mjp q true ms' x (some v') (some A) wrt = Sequential.mjp q true ms x (some v) (some A) wrt
    simp only [Sequential.mjp, Sequential.getVal, same_mjpInput h, same_mjpWeight h, hl]
    rfl
  · show Sequential.jTmjp q true ms' x (some v') A wrt fd td db = Sequential.jTmjp q true ms x (some v) A wrt fd td db
    obtain ⟨s, d⟩ := v
    obtain ⟨s', d'⟩ := v'
    cases e
    simp only [Sequential.jTmjp, Sequential.getVal, same_jTmjpInput h, same_jTmjpWeight h, hl]
    rfl

end seq

theorem tailVal_shape {v v' : Tensor ℝ} (h : v.shape = v'.shape) (l : Nat) :
    (∃ e, SkipConnection.tailVal (some v) l = .error e ∧ SkipConnection.tailVal (some v') l = .error e) ∨
    ∃ t t', SkipConnection.tailVal (some v) l = .ok (some t) ∧ SkipConnection.tailVal (some v') l = .ok (some t') ∧ t.shape = t'.shape := by
  obtain ⟨s, d⟩ := v
  obtain ⟨s', d'⟩ := v'
  cases h
  cases hs : s[1]? with
  | none =>
    refine Or.inl ⟨.index, ?_, ?_⟩ <;> simp [SkipConnection.tailVal, Tensor.dim, hs] <;> rfl
  | some n =>
    have key : ∀ d : Nat → ℝ, ∃ t, SkipConnection.tailVal (some (⟨s, d⟩ : Tensor ℝ)) l = .ok (some t) ∧ t.shape = s.set 1 (min n n - min l n) := by
      intro d
      simp only [SkipConnection.tailVal, Tensor.dim, Tensor.slice, hs]
      exact ⟨_, rfl, rfl⟩
    obtain ⟨t, h1, h2⟩ := key d
    obtain ⟨t', h1', h2'⟩ := key d'
    exact Or.inr ⟨t, t', h1, h1', h2.trans h2'.symm⟩

theorem lift_ok {β γ : Type} {b : β} {f : β → Prog ℝ γ} : ((liftM (.ok b : Res β) : Prog ℝ β) >>= f) = f b := rfl
theorem Prog.pure_bind' {β γ : Type} {b : β} {f : β → Prog ℝ γ} : ((Pure.pure b : Prog ℝ β) >>= f) = f b := rfl
theorem lift_error {β γ : Type} {e : Err} {f : β → Prog ℝ γ} : ((liftM (.error e : Res β) : Prog ℝ β) >>= f) = Prog.throw e := rfl

theorem ShapeBack.skip {id : Nat} {F F' : Mod ℝ} (h : ShapeBack F F') (hn : F'.nParams = F.nParams) : ShapeBack (SkipConnection.mod id F) (SkipConnection.mod id F') := by
  refine ⟨fun {x v v' u wrt} e => ?_, fun {x v v' A wrt} e => ?_, fun {x v v' A wrt fd td db} e => ?_⟩
  · show SkipConnection.vjp F' x (some v') u wrt = SkipConnection.vjp F x (some v) u wrt
    simp only [SkipConnection.vjp]
    congr 1
    funext l
    obtain ⟨e, h1, h2⟩ | ⟨t, t', h1, h2, h3⟩ := tailVal_shape e l
    · rw [h1, h2]; rfl
    · rw [h1, h2]; simp only [lift_ok, h.vjp h3]
  · show SkipConnection.mjp F' F'.nParams x (some v') (some A) wrt = SkipConnection.mjp F F.nParams x (some v) (some A) wrt
    simp only [SkipConnection.mjp]
    congr 1
    funext l
    obtain ⟨e, h1, h2⟩ | ⟨t, t', h1, h2, h3⟩ := tailVal_shape e l
    · rw [h1, h2]; rfl
    · rw [h1, h2]; simp only [lift_ok, h.mjp h3]
  · show SkipConnection.jTmjp F' x (some v') A wrt fd td db = SkipConnection.jTmjp F x (some v) A wrt fd td db
    have e1 : onesLike v' = onesLike v := by
      obtain ⟨s, d⟩ := v; obtain ⟨s', d'⟩ := v'; cases e; rfl
    simp only [SkipConnection.jTmjp, SkipConnection.getVal]
    congr 1
    funext _
    rw [Prog.pure_bind', Prog.pure_bind']
    simp only [e1]
    congr 1
    funext l
    obtain ⟨e, h1, h2⟩ | ⟨t, t', h1, h2, h3⟩ := tailVal_shape e l
    · rw [h1, h2]; rfl
    · rw [h1, h2]; simp only [lift_ok, h.jTmjp h3, h.mjp h3]

end NNJ
