import Verif.Spec.Empty
import Verif.Proofs.Tame
import Verif.Proofs.Post
import Verif.Proofs.Loose
import Verif.Proofs.LooseNet
import Verif.Proofs.ConvGood

/-! Batches without samples. -/

namespace NNJ
open Tensor

/-- no samples -/
def L0 (t : Tensor ℝ) : Prop := ∃ r, t.shape = 0 :: r

/-- the recorded feature maps of container `i` have no samples -/
def Bare (i : Nat) (s : Store ℝ) : Prop := ∀ l, s.fmaps i = some l → ∀ t ∈ l, L0 t

/-- nothing but feature maps without samples is recorded -/
def KeepBare (s s' : Store ℝ) : Prop := ∀ i, Bare i s → Bare i s'

theorem KeepBare.refl {s : Store ℝ} : KeepBare s s := fun _ h => h
theorem KeepBare.trans {s s' s'' : Store ℝ} (h : KeepBare s s') (h' : KeepBare s' s'') : KeepBare s s'' := fun i hi => h' i (h i hi)
theorem KeepBare.same {s s' : Store ℝ} (h : s'.fmaps = s.fmaps) : KeepBare s s' := fun i hi l hl => hi l (by rwa [h] at hl)

theorem HooksOk.keeps {s s' : Store ℝ} (h : HooksOk s) (k : Keeps s s') : HooksOk s' :=
  fun i q hq => k.some q (h i q (by rwa [k.hooks] at hq))

/-- whenever `call` returns: `Q`, and only feature maps without samples were added -/
def Out {β : Type} (call : Prog ℝ β) (st : Store ℝ) (Q : Prop) : Prop := ∀ r st', call st = (.ok r, st') → Q ∧ KeepBare st st'

theorem Out.noReturn {β : Type} {call : Prog ℝ β} {st : Store ℝ} {Q : Prop} (h : Out call st Q) (hQ : ¬ Q) : NoReturn call st := by
  rcases e : call st with ⟨r, st'⟩
  cases r with
  | error e' => exact ⟨e', st', e⟩
  | ok b => exact (hQ (h b st' e).1).elim

/-- a module with what is said about it -/
structure EM where
  m : Mod ℝ
  Sh : Store ℝ → Prop
  s : List Nat
  s' : List Nat
  C : List Nat
  F : Prop
  M : Prop
  N : Prop
  W : Prop

/-- the value handed to a method -/
def EM.VOk (e : EM) (val : Option (Tensor ℝ)) (st : Store ℝ) : Prop := ∀ v ∈ val, L0 v ∧ ∀ i ∈ e.C, Bare i st

/-- what is said about a module -/
structure Empt (e : EM) : Prop where
  tame : Tame e.m
  mn : e.M → e.N
  sh_of : ∀ {st st'}, Keeps st st' → e.Sh st → e.Sh st'
  fwd : ∀ {st x y st'}, e.Sh st → HooksOk st → x.shape = 0 :: e.s → e.m.forward x st = (.ok y, st') →
    ¬ e.F ∧ y.shape = 0 :: e.s' ∧ KeepBare st st' ∧ ∀ i ∈ e.C, Bare i st'
  fwdOk : ∀ {st x}, ¬ e.F → e.Sh st → HooksOk st → x.shape = 0 :: e.s → ∃ y st', e.m.forward x st = (.ok y, st')
  jvp : ∀ {st x val u}, e.Sh st → HooksOk st → x.shape = 0 :: e.s → e.VOk val st → Out (e.m.jvp x val u .input) st ¬ e.N
  jmp : ∀ {st x val u}, e.Sh st → HooksOk st → x.shape = 0 :: e.s → e.VOk val st → Out (e.m.jmp x val (some u) .input) st ¬ e.N
  jmpW : ∀ {st x val u}, e.Sh st → HooksOk st → x.shape = 0 :: e.s → e.VOk val st → Out (e.m.jmp x val (some u) .weight) st ¬ e.W
  /- reverse mode without a value -/
  vjpN : ∀ {st x u}, e.Sh st → HooksOk st → x.shape = 0 :: e.s → Out (e.m.vjp x none u .input) st ¬ e.N
  mjpN : ∀ {st x u}, e.Sh st → HooksOk st → x.shape = 0 :: e.s → Out (e.m.mjp x none u .input) st ¬ e.N
  jacN : ∀ {st x}, e.Sh st → HooksOk st → x.shape = 0 :: e.s → Out (e.m.jacobian x none .input) st ¬ e.N
  jTmjpN : ∀ {st x u a b c}, e.Sh st → HooksOk st → x.shape = 0 :: e.s → Out (e.m.jTmjp x none u .input a b c) st ¬ e.N
  jmjTpN : ∀ {st x u a b c}, e.Sh st → HooksOk st → x.shape = 0 :: e.s → Out (e.m.jmjTp x none u .input a b c) st ¬ e.N
  vjpWN : ∀ {st x u}, e.Sh st → HooksOk st → x.shape = 0 :: e.s → Out (e.m.vjp x none u .weight) st ¬ e.W
  mjpWN : ∀ {st x u}, e.Sh st → HooksOk st → x.shape = 0 :: e.s → Out (e.m.mjp x none (some u) .weight) st ¬ e.W
  /- reverse mode with a value -/
  vjp : ∀ {st x v u}, L0 x → e.VOk (some v) st → Out (e.m.vjp x (some v) u .input) st ¬ e.M
  mjp : ∀ {st x v u}, L0 x → e.VOk (some v) st → Out (e.m.mjp x (some v) u .input) st ¬ e.M
  jac : ∀ {st x v}, L0 x → e.VOk (some v) st → Out (e.m.jacobian x (some v) .input) st ¬ e.M
  jTmjp : ∀ {st x v u a b c}, L0 x → e.VOk (some v) st → Out (e.m.jTmjp x (some v) u .input a b c) st ¬ e.M
  jmjTp : ∀ {st x v u a b c}, L0 x → e.VOk (some v) st → Out (e.m.jmjTp x (some v) u .input a b c) st ¬ e.M
  vjpW : ∀ {st x v u}, L0 x → e.VOk (some v) st → Out (e.m.vjp x (some v) u .weight) st ¬ e.W
  mjpW : ∀ {st x v u}, L0 x → e.VOk (some v) st → Out (e.m.mjp x (some v) (some u) .weight) st ¬ e.W

theorem bare_runHooks {v : Tensor ℝ} (hv : L0 v) : ∀ (hs : List Nat) {s s' : Store ℝ} {b : Unit}, Mod.runHooks v hs s = (.ok b, s') → KeepBare s s'
  | [], s, s', b, h => by
    simp only [Mod.runHooks, Prog.pure] at h
    cases h
    exact .refl
  | q :: hs, s, s', b, h => by
    simp only [Mod.runHooks] at h
    obtain ⟨c, s1, h1, h2⟩ := bind_inv h
    refine KeepBare.trans ?_ (bare_runHooks hv hs h2)
    simp only [Mod.runHook] at h1
    split at h1
    · next l hl =>
      cases h1
      intro i hi l' hl' t ht
      by_cases e : i = q
      · subst e
        simp only [if_true, Option.some.injEq] at hl'
        subst hl'
        rcases List.mem_append.1 ht with ht | ht
        · exact hi l hl t ht
        · rw [List.mem_singleton.1 ht]; exact hv
      · simp only [if_neg e] at hl'
        exact hi l' hl' t ht
    · cases h1

namespace Empt
variable {e : EM} (h : Empt e)
include h

theorem call {st : Store ℝ} {x y : Tensor ℝ} {st' : Store ℝ} (hs : e.Sh st) (ho : HooksOk st) (hx : x.shape = 0 :: e.s) (hc : e.m.call x st = (.ok y, st')) :
    ¬ e.F ∧ y.shape = 0 :: e.s' ∧ KeepBare st st' ∧ (∀ i ∈ e.C, Bare i st') ∧ Keeps st st' := by
  have hk := h.tame.call x st
  rw [hc] at hk
  simp only [Mod.call] at hc
  obtain ⟨v, s1, h1, hc⟩ := bind_inv hc
  obtain ⟨a1, a2, a3, a4⟩ := h.fwd hs ho hx h1
  obtain ⟨l, s2, h2, hc⟩ := bind_inv hc
  simp only [Prog.read] at h2
  cases h2
  obtain ⟨u, s3, h3, hc⟩ := bind_inv hc
  cases hc
  have hb := bare_runHooks ⟨_, a2⟩ _ h3
  exact ⟨a1, a2, a3.trans hb, fun i hi => hb i (a4 i hi), hk⟩

theorem callOk {st : Store ℝ} {x : Tensor ℝ} (hF : ¬ e.F) (hs : e.Sh st) (ho : HooksOk st) (hx : x.shape = 0 :: e.s) :
    ∃ y st', e.m.call x st = (.ok y, st') := by
  obtain ⟨y, s1, h1⟩ := h.fwdOk hF hs ho hx
  have hk := h.tame.forward x st
  rw [h1] at hk
  obtain ⟨u, s2, h2, -⟩ := run_hooks y (s1.hooks e.m.id) s1 fun q hq => (ho.keeps hk) _ q hq
  refine ⟨y, s2, ?_⟩
  simp only [Mod.call]
  rw [Prog.bind_run, h1]
  show (Prog.bind (Mod.runHooks y (s1.hooks e.m.id)) fun _ => Pure.pure y : Prog ℝ _) s1 = _
  simp only [Prog.bind, h2]
  rfl
end Empt

/-! ### leaves -/

theorem empt_pure {L : Store ℝ → PureLayer ℝ} {id np : Nat} {ps : List Nat} {Sh : Store ℝ → Prop} {s s' : List Nat} {F M W : Prop}
    (hsh : ∀ {st st'}, Keeps st st' → Sh st → Sh st')
    (hF : ∀ {st x y}, Sh st → x.shape = 0 :: s → (L st).forward x = .ok y → ¬ F ∧ y.shape = 0 :: s')
    (hO : ∀ {st x}, ¬ F → Sh st → x.shape = 0 :: s → ∃ y, (L st).forward x = .ok y)
    (hM : M → ∀ {st x val}, L0 x → (∀ v ∈ val, L0 v) →
      (∀ u, RPost ((L st).jvp x val u .input) fun _ => False) ∧ (∀ u, RPost ((L st).jmp x val u .input) fun _ => False) ∧
      (∀ u, RPost ((L st).vjp x val u .input) fun _ => False) ∧ (∀ u, RPost ((L st).mjp x val u .input) fun _ => False) ∧
      RPost ((L st).jacobian x val .input) (fun _ => False) ∧ (∀ u a b c, RPost ((L st).jTmjp x val u .input a b c) fun _ => False) ∧
      (∀ u a b c, RPost ((L st).jmjTp x val u .input a b c) fun _ => False))
    (hW : W → ∀ {st x val}, L0 x → (∀ u, RPost ((L st).jmp x val (some u) .weight) fun _ => False) ∧
      (∀ u, RPost ((L st).vjp x val u .weight) fun _ => False) ∧ (∀ u, RPost ((L st).mjp x val (some u) .weight) fun _ => False)) :
    Empt ⟨PureLayer.toMod L id np ps, Sh, s, s', [], F, M, M, W⟩ := by
  have out : ∀ {β : Type} {p : Store ℝ → Res β} {st : Store ℝ} {Q : Prop}, (Q → RPost (p st) fun _ => False) → Out (fun s => (p s, s)) st ¬ Q := by
    intro β p st Q hp r st' hr
    have e1 : p st = .ok r := congrArg Prod.fst hr
    have e2 : st = st' := congrArg Prod.snd hr
    subst e2
    exact ⟨fun q => hp q r e1, .refl⟩
  have l0 : ∀ {x : Tensor ℝ}, x.shape = 0 :: s → L0 x := fun h => ⟨_, h⟩
  have v0 : ∀ {val : Option (Tensor ℝ)} {st : Store ℝ}, EM.VOk ⟨PureLayer.toMod L id np ps, Sh, s, s', [], F, M, M, W⟩ val st → ∀ v ∈ val, L0 v :=
    fun h v hv => (h v hv).1
  have n0 : ∀ v ∈ (none : Option (Tensor ℝ)), L0 v := by simp
  refine {
    tame := tame_pure _ _ _ _, mn := fun h => h, sh_of := hsh
    fwd := fun hs ho hx hy => ?_, fwdOk := fun hf hs ho hx => ?_
    jvp := fun hs ho hx hv => out fun q => (hM q (l0 hx) (v0 hv)).1 _
    jmp := fun hs ho hx hv => out fun q => (hM q (l0 hx) (v0 hv)).2.1 _
    jmpW := fun hs ho hx hv => out fun q => (hW q (l0 hx)).1 _
    vjpN := fun hs ho hx => out fun q => (hM q (l0 hx) n0).2.2.1 _
    mjpN := fun hs ho hx => out fun q => (hM q (l0 hx) n0).2.2.2.1 _
    jacN := fun hs ho hx => out fun q => (hM q (l0 hx) n0).2.2.2.2.1
    jTmjpN := fun hs ho hx => out fun q => RPost.bind ((hM q (l0 hx) n0).2.2.2.2.2.1 _ _ _ _) fun _ h => h.elim
    jmjTpN := fun hs ho hx => out fun q => RPost.any fun _ => (hM q (l0 hx) n0).2.2.2.2.2.2 _ _ _ _
    vjpWN := fun hs ho hx => out fun q => (hW q (l0 hx)).2.1 _
    mjpWN := fun hs ho hx => out fun q => (hW q (l0 hx)).2.2 _
    vjp := fun hx hv => out fun q => (hM q hx (v0 hv)).2.2.1 _
    mjp := fun hx hv => out fun q => (hM q hx (v0 hv)).2.2.2.1 _
    jac := fun hx hv => out fun q => (hM q hx (v0 hv)).2.2.2.2.1
    jTmjp := fun hx hv => out fun q => RPost.bind ((hM q hx (v0 hv)).2.2.2.2.2.1 _ _ _ _) fun _ h => h.elim
    jmjTp := fun hx hv => out fun q => RPost.any fun _ => (hM q hx (v0 hv)).2.2.2.2.2.2 _ _ _ _
    vjpW := fun hx hv => out fun q => (hW q hx).2.1 _
    mjpW := fun hx hv => out fun q => (hW q hx).2.2 _ }
  · have e1 := congrArg Prod.fst hy
    have e2 := congrArg Prod.snd hy
    dsimp only [PureLayer.toMod] at e1 e2
    subst e2
    obtain ⟨a, b⟩ := hF hs hx e1
    exact ⟨a, b, .refl, by simp⟩
  · obtain ⟨y, hy⟩ := hO hf hs hx
    exact ⟨y, _, Prod.ext hy rfl⟩

theorem infer_zero {α : Type} {t : Tensor α} {pre : List Nat} {r : List Nat} {Q : Tensor α → Prop} (h : 0 ∈ pre) : RPost (t.reshapeInfer pre r) Q := by
  have : size pre = 0 := by
    induction pre with
    | nil => simp at h
    | cons a l ih =>
      rcases List.mem_cons.1 h with h | h
      · simp [size_cons, ← h]
      · simp [size_cons, ih h]
  simp only [reshapeInfer, this, Nat.zero_mul, if_true]
  exact RPost.error

theorem numel0_L0 {t : Tensor ℝ} (h : L0 t) {Q : Nat → Prop} : RPost t.numel0 Q := by
  obtain ⟨r, hr⟩ := h
  simp only [numel0, hr]
  exact RPost.error

theorem dim0_L0 {t : Tensor ℝ} (h : L0 t) : t.dim 0 = .ok 0 := by
  obtain ⟨r, hr⟩ := h
  simp [Tensor.dim, hr]

theorem act_jac_L0 {f : ℝ → ℝ} {dg : Tensor ℝ → Tensor ℝ → Tensor ℝ} {x : Tensor ℝ} {val : Option (Tensor ℝ)} (hx : L0 x) (hv : ∀ v ∈ val, L0 v) (d : Bool)
    {Q : Option (Tensor ℝ) → Prop} : RPost (Activation.jacobian (fun x => .ok (x.map f)) dg x val .input d) Q := by
  have key : ∀ v : Tensor ℝ, L0 v → RPost (do
      let b ← v.dim 0
      let d' ← (dg x v).reshapeInfer [b] []
      if d = true then pure (some d') else some <$> d'.diagEmbed : Res (Option (Tensor ℝ))) Q := by
    intro v hv0
    rw [dim0_L0 hv0, Res.bind_ok]
    exact RPost.bind (P := fun _ => False) (infer_zero (by simp)) fun _ h => h.elim
  cases val with
  | none => exact key (x.map f) hx
  | some v => exact key v (hv v rfl)

theorem empt_act (a : Act) (id : Nat) (s : List Nat) : Empt ⟨Activation.toMod a.layer id, fun _ => True, s, s, [], False, True, True, False⟩ := by
  obtain ⟨f, dg, e⟩ : ∃ f dg, a.layer = Activation.layer f dg := by cases a <;> exact ⟨_, _, rfl⟩
  rw [e]
  refine empt_pure (fun _ h => h) (fun {st x y} _ hx hy => ?_) (fun _ _ _ => ⟨_, rfl⟩) (fun _ st x val hx hv => ?_) (fun h => h.elim)
  · cases hy
    exact ⟨not_false, hx⟩
  · have hj := @act_jac_L0 f dg x val hx hv
    have hj' : ∀ (v : Tensor ℝ), L0 v → ∀ d {Q}, RPost (Activation.jacobian (fun x => .ok (x.map f)) dg x (some v) .input d) Q :=
      fun v h0 d => act_jac_L0 hx (fun v' h => by cases h; exact h0) d
    refine ⟨fun u => ?_, fun u => ?_, fun u => ?_, fun u => ?_, hj _, fun u a b c => ?_, fun u a b c => ?_⟩
    · exact RPost.bind (P := fun _ => False) (hj _) fun _ h => h.elim
    · cases u
      · exact hj _
      · exact RPost.bind (P := fun _ => False) (hj _) fun _ h => h.elim
    · exact RPost.bind (P := fun _ => False) (hj _) fun _ h => h.elim
    · cases u
      · exact hj _
      · exact RPost.bind (P := fun _ => False) (hj _) fun _ h => h.elim
    · refine RPost.any fun _ => ?_
      cases val with
      | none =>
        cases u with
        | none => exact RPost.bind (P := L0) (RPost.ok hx) fun w hw => RPost.any fun _ => RPost.any fun _ => RPost.bind (P := fun _ => False) (hj' w hw _) fun _ h => h.elim
        | some u => exact RPost.bind (P := L0) (RPost.ok hx) fun w hw => RPost.any fun _ => RPost.bind (P := fun _ => False) (hj' w hw _) fun _ h => h.elim
      | some v =>
        cases u with
        | none => exact RPost.bind (P := L0) (RPost.pure (hv v rfl)) fun w hw => RPost.any fun _ => RPost.any fun _ => RPost.bind (P := fun _ => False) (hj' w hw _) fun _ h => h.elim
        | some u => exact RPost.bind (P := L0) (RPost.pure (hv v rfl)) fun w hw => RPost.any fun _ => RPost.bind (P := fun _ => False) (hj' w hw _) fun _ h => h.elim
    · refine RPost.any fun _ => ?_
      cases val with
      | none =>
        cases u with
        | none => exact RPost.bind (P := L0) (RPost.ok hx) fun w hw => RPost.any fun _ => RPost.any fun _ => RPost.bind (P := fun _ => False) (hj' w hw _) fun _ h => h.elim
        | some u => exact RPost.bind (P := L0) (RPost.ok hx) fun w hw => RPost.any fun _ => RPost.bind (P := fun _ => False) (hj' w hw _) fun _ h => h.elim
      | some v =>
        cases u with
        | none => exact RPost.bind (P := L0) (RPost.pure (hv v rfl)) fun w hw => RPost.any fun _ => RPost.any fun _ => RPost.bind (P := fun _ => False) (hj' w hw _) fun _ h => h.elim
        | some u => exact RPost.bind (P := L0) (RPost.pure (hv v rfl)) fun w hw => RPost.any fun _ => RPost.bind (P := fun _ => False) (hj' w hw _) fun _ h => h.elim

theorem empt_linear (id wId : Nat) (bId : Option Nat) (i o : Nat) (ho : 0 < o) :
    Empt ⟨Linear.mod id wId bId i o, fun st => (st.param wId).shape = [o, i] ∧ ∀ b ∈ bId, (st.param b).shape = [o], [i], [o], [], False, False, False, True⟩ := by
  have key : ∀ {st : Store ℝ} {x : Tensor ℝ}, ((st.param wId).shape = [o, i] ∧ ∀ b ∈ bId, (st.param b).shape = [o]) → x.shape = [0, i] →
      ∃ y, Linear.forward (st.param wId) (bId.map st.param) x = .ok y ∧ y.shape = [0, o] := by
    intro st x hs hx
    obtain ⟨y, hy, h⟩ := Linear.forward_ret (B := 0) (X := fun b => b.elim0) (bias := bId.map st.param) hs.1 ho
      (by simpa using hs.2) ⟨hx, fun b => b.elim0⟩
    exact ⟨y, hy, h.1⟩
  refine empt_pure (fun k h => ⟨(k.param _).trans h.1, fun b hb => (k.param _).trans (h.2 b hb)⟩) (fun {st x y} hs hx hy => ?_)
    (fun _ hs hx => ?_) (fun h => h.elim) (fun _ st x val hx => ?_)
  · obtain ⟨y', e, h⟩ := key hs hx
    rw [show (Linear.layer _ _ _ : PureLayer ℝ).forward x = Linear.forward _ _ x from rfl, e] at hy
    cases hy
    exact ⟨not_false, h⟩
  · obtain ⟨y', e, h⟩ := key hs hx
    exact ⟨y', e⟩
  · have hd : RPost x.dims2 fun r => r.1 = 0 := by
      obtain ⟨r, hr⟩ := hx
      simp only [dims2, hr]
      rcases r with _ | ⟨c, _ | ⟨d, r⟩⟩
      · exact RPost.error
      · exact RPost.ok rfl
      · exact RPost.error
    refine ⟨fun u => ?_, fun u => ?_, fun u => ?_⟩
    · refine RPost.bind hd fun ⟨b, c⟩ hb => RPost.any fun v => RPost.any fun c2 => RPost.any fun n => RPost.any fun _ => ?_
      dsimp only at hb
      subst hb
      cases hbias : (bId.map st.param) with
      | none => exact RPost.bind (P := fun _ => False) (infer_zero (by simp)) fun _ h => h.elim
      | some t => exact RPost.any fun _ => RPost.bind (P := fun _ => False) (infer_zero (by simp)) fun _ h => h.elim
    · refine RPost.bind hd fun ⟨b, c⟩ hb => RPost.any fun v => ?_
      dsimp only at hb
      subst hb
      exact RPost.bind (P := fun _ => False) (infer_zero (by simp)) fun _ h => h.elim
    · refine RPost.bind hd fun ⟨b, c⟩ hb => RPost.any fun v => RPost.any fun c2 => RPost.any fun n => RPost.any fun _ => ?_
      dsimp only at hb
      subst hb
      exact RPost.bind (P := fun _ => False) (infer_zero (by simp)) fun _ h => h.elim

theorem empt_flatten (id : Nat) (s : List Nat) (s' : List Nat) : Empt ⟨Resh.flatten id, fun _ => True, s, s', [], True, False, False, False⟩ := by
  refine empt_pure (fun _ h => h) (fun {st x y} _ hx hy => ?_) (fun h => (h trivial).elim) (fun h => h.elim) (fun h => h.elim)
  have : RPost (Resh.flattenForward x) fun _ => False := by
    simp only [Resh.flattenForward, dim0_L0 ⟨_, hx⟩, Res.bind_ok]
    exact infer_zero (by simp)
  exact (this y hy).elim

theorem empt_reshape (z : List Int) (id : Nat) (s dims : List Nat) (n : Nat) (hd : size dims = n) (hz : OpenShape z dims) :
    Empt ⟨Resh.reshape z id, fun _ => True, s, dims, [], (-1 : Int) ∈ z, False, False, False⟩ := by
  have tw : ∀ (l : List Nat) (r : List Int), ((l.map (fun a : Nat => (a : Int)) ++ r).takeWhile fun d => decide (0 ≤ d)) =
      l.map (fun a : Nat => (a : Int)) ++ r.takeWhile fun d => decide (0 ≤ d) := by
    intro l r
    induction l with
    | nil => rfl
    | cons a l ih => simp [ih]
  have dw : ∀ (l : List Nat) (r : List Int), ((l.map (fun a : Nat => (a : Int)) ++ r).dropWhile fun d => decide (0 ≤ d)) = r.dropWhile fun d => decide (0 ≤ d) := by
    intro l r
    induction l with
    | nil => rfl
    | cons a l ih => simp [ih]
  have nat : ∀ l : List Nat, (l.map (fun a : Nat => (a : Int))).map Int.toNat = l := by
    intro l; induction l with
    | nil => rfl
    | cons a l ih => simp [ih]
  have key : ∀ x : Tensor ℝ, x.shape = 0 :: s →
      (((-1 : Int) ∉ z → ∃ y, Resh.reshapeForward z x = .ok y ∧ y.shape = 0 :: dims) ∧ ((-1 : Int) ∈ z → ∃ e, Resh.reshapeForward z x = .error e)) := by
    intro x hx
    simp only [Resh.reshapeForward, dim0_L0 ⟨_, hx⟩, Res.bind_ok]
    rcases hz with rfl | ⟨pre, a, post, rfl, rfl⟩
    · refine ⟨fun _ => ?_, fun h => ?_⟩
      · have e1 := tw (0 :: dims) []
        have e2 := dw (0 :: dims) []
        simp only [List.append_nil, List.map_cons, Nat.cast_zero, List.takeWhile_nil, List.dropWhile_nil] at e1 e2
        refine ⟨⟨0 :: dims, x.data⟩, ?_, rfl⟩
        simp only [reshapeOpen, Nat.cast_zero, e1, e2]
        have e3 := nat (0 :: dims)
        simp only [List.map_cons, Nat.cast_zero] at e3
        simp only [reshape, Nat.cast_zero, e3, List.map_cons, size_cons, numel, hx, Nat.zero_mul, if_true]
      · exfalso
        obtain ⟨a, -, ha⟩ := List.mem_map.1 h
        omega
    · refine ⟨fun h => absurd (by simp) h, fun _ => ?_⟩
      have e1 := tw (0 :: pre) (-1 :: post.map (fun a : Nat => (a : Int)))
      have e2 := dw (0 :: pre) (-1 :: post.map (fun a : Nat => (a : Int)))
      simp only [List.map_cons, Nat.cast_zero, List.cons_append, List.takeWhile_cons_of_neg (a := (-1 : Int)) (p := fun d => decide (0 ≤ d)) (l := post.map (fun a : Nat => (a : Int))) (by decide),
        List.dropWhile_cons_of_neg (a := (-1 : Int)) (p := fun d => decide (0 ≤ d)) (l := post.map (fun a : Nat => (a : Int))) (by decide), List.append_nil] at e1 e2
      simp only [reshapeOpen, Nat.cast_zero, e1, e2]
      rw [if_pos ⟨trivial, by simp⟩]
      have e3 := nat (0 :: pre)
      simp only [List.map_cons, Nat.cast_zero] at e3
      simp only [List.map_cons, e3]
      refine ⟨.shape, ?_⟩
      simp only [reshapeInfer, size_cons, Nat.zero_mul, if_true]
  refine empt_pure (fun _ h => h) (fun {st x y} _ hx hy => ?_) (fun {st x} h _ hx => ?_) (fun h => h.elim) (fun h => h.elim)
  · by_cases h : (-1 : Int) ∈ z
    · obtain ⟨e, he⟩ := (key x hx).2 h
      rw [show (Resh.layer _ : PureLayer ℝ).forward x = Resh.reshapeForward z x from rfl, he] at hy
      cases hy
    · obtain ⟨y', he, hs⟩ := (key x hx).1 h
      rw [show (Resh.layer _ : PureLayer ℝ).forward x = Resh.reshapeForward z x from rfl, he] at hy
      cases hy
      exact ⟨h, hs⟩
  · obtain ⟨y', he, hs⟩ := (key x hx).1 h
    exact ⟨y', he⟩

theorem empt_l2 (eps : ℝ) (id : Nat) (s : List Nat) : Empt ⟨L2Norm.mod eps id, fun _ => True, s, s, [], True, True, True, False⟩ := by
  refine empt_pure (fun _ h => h) (fun {st x y} _ hx hy => ?_) (fun h => (h trivial).elim) (fun _ st x val hx hv => ?_) (fun h => h.elim)
  · have : RPost (L2Norm.forward eps x) fun _ => False := by
      simp only [L2Norm.forward, dim0_L0 ⟨_, hx⟩, Res.bind_ok]
      exact RPost.bind (P := fun _ => False) (infer_zero (by simp)) fun _ h => h.elim
    exact (this y hy).elim
  · have hj : ∀ {Q}, RPost (L2Norm.jacobian eps x val .input) Q := by
      intro Q
      simp only [L2Norm.jacobian, dim0_L0 hx, Res.bind_ok]
      cases val with
      | none => exact RPost.any fun _ => RPost.bind (P := fun _ => False) (infer_zero (by simp)) fun _ h => h.elim
      | some v => exact RPost.any fun _ => RPost.bind (P := fun _ => False) (infer_zero (by simp)) fun _ h => h.elim
    refine ⟨fun u => ?_, fun u => ?_, fun u => ?_, fun u => ?_, hj, fun u a b c => ?_, fun u a b c => ?_⟩
    all_goals exact RPost.bind (P := fun _ => False) hj fun _ h => h.elim

theorem empt_conv (id wId : Nat) (bId : Option Nat) (g : ConvDims) :
    Empt ⟨Conv2d.mod (g.cfg bId) id wId (bId.getD 0), fun st => (st.param wId).shape = [g.c2, g.c1, g.kh, g.kw] ∧ ∀ b ∈ bId, (st.param b).shape = [g.c2],
      [g.c1, g.h1, g.w1], [g.c2, g.h2, g.w2], [], False, False, False, False⟩ := by
  have key : ∀ {st : Store ℝ} {x : Tensor ℝ}, ((st.param wId).shape = [g.c2, g.c1, g.kh, g.kw] ∧ ∀ b ∈ bId, (st.param b).shape = [g.c2]) →
      x.shape = [0, g.c1, g.h1, g.w1] →
      ∃ y, Conv2d.forward (g.cfg bId) (st.param wId) (if (g.cfg bId).hasBias then some (st.param (bId.getD 0)) else none) x = .ok y ∧ y.shape = [0, g.c2, g.h2, g.w2] := by
    intro st x hs hx
    have n4 : N4 (st.param wId) g.c2 g.c1 g.kh g.kw fun o c i j => (st.param wId).data (((o * g.c1 + c) * g.kh + i) * g.kw + j) :=
      N4.of_data hs.1 fun _ _ _ _ _ _ _ _ => rfl
    have hf := Conv2d.fits_dims g bId
    obtain ⟨k1, k2, k3, k4, k5, k6, k7, k8, k9, k10, k11, k12, k13, k14, k15⟩ := hf
    have ea : (g.cfg bId).fwdArgs = { stride := (1, 1), padding := ((g.ph : Int), (g.pw : Int)), dilation := (1, 1), groups := 1 } := by
      simp only [Conv2d.Cfg.fwdArgs, k2, k3, k4, k5]
    have hx' : IsBatch x 0 [g.c1, g.h1, g.w1] (g.c1 * g.h1 * g.w1) (fun b => b.elim0) := ⟨hx, fun b => b.elim0⟩
    have hb : ∀ t ∈ (if (g.cfg bId).hasBias then some (st.param (bId.getD 0)) else none), t.shape = [g.c2] := by
      cases bId with
      | none => simp [ConvDims.cfg]
      | some b => simpa [ConvDims.cfg] using hs.2 b rfl
    obtain ⟨y, hy, h⟩ := conv2d_spec (a := { stride := (1, 1), padding := ((g.ph : Int), (g.pw : Int)), dilation := (1, 1), groups := 1 })
      (b := if (g.cfg bId).hasBias then some (st.param (bId.getD 0)) else none) (oh := g.h2) (ow := g.w2) hx'.n4 n4 hb rfl rfl Nat.one_pos Nat.one_pos
      (by simp) (by simp) k12 k13 (Conv2d.convLen_one (by push_cast; omega)) (Conv2d.convLen_one (by push_cast; omega))
    exact ⟨y, by rw [Conv2d.forward, ea]; exact hy, h.1⟩
  refine empt_pure (fun k h => ⟨(k.param _).trans h.1, fun b hb => (k.param _).trans (h.2 b hb)⟩) (fun {st x y} hs hx hy => ?_)
    (fun _ hs hx => ?_) (fun h => h.elim) (fun h => h.elim)
  · obtain ⟨y', e, h⟩ := key hs hx
    rw [show (Conv2d.layer _ _ _ : PureLayer ℝ).forward x = Conv2d.forward _ _ _ x from rfl, e] at hy
    cases hy
    exact ⟨not_false, h⟩
  · obtain ⟨y', e, h⟩ := key hs hx
    exact ⟨y', e⟩

theorem empt_up (id c h w r : Nat) (hh : 0 < h) (hw : 0 < w) (hr : 0 < r) :
    Empt ⟨Upsample.mod ⟨r, 1⟩ id, fun _ => True, [c, h, w], [c, h * r, w * r], [], False, False, False, False⟩ := by
  have key : ∀ {x : Tensor ℝ}, x.shape = [0, c, h, w] → ∃ y, Upsample.forward ⟨r, 1⟩ x = .ok y ∧ y.shape = [0, c, h * r, w * r] := by
    intro x hx
    have h1 : h * r ≠ 0 := Nat.ne_of_gt (Nat.mul_pos hh hr)
    have h2 : w * r ≠ 0 := Nat.ne_of_gt (Nat.mul_pos hw hr)
    simp only [Upsample.forward, Torch.upsampleNearest, hx, Nat.div_one]
    rw [if_neg (by omega), if_neg (by tauto)]
    exact ⟨_, rfl, rfl⟩
  refine empt_pure (fun _ h => h) (fun {st x y} _ hx hy => ?_) (fun _ _ hx => ?_) (fun h => h.elim) (fun h => h.elim)
  · obtain ⟨y', e, h⟩ := key hx
    rw [show (Upsample.layer _ : PureLayer ℝ).forward x = Upsample.forward _ x from rfl, e] at hy
    cases hy
    exact ⟨not_false, h⟩
  · obtain ⟨y', e, h⟩ := key hx
    exact ⟨y', e⟩

/-! ### MaxPool2d -/

/-- does not touch feature maps -/
def FP {β : Type} (p : Prog ℝ β) : Prop := ∀ s, (p s).2.fmaps = s.fmaps

namespace FP
variable {β γ : Type}
theorem pure (b : β) : FP (Pure.pure b : Prog ℝ β) := fun _ => rfl
theorem pure' (b : β) : FP (Prog.pure b : Prog ℝ β) := fun _ => rfl
theorem throw (e : Err) : FP (Prog.throw e : Prog ℝ β) := fun _ => rfl
theorem lift (r : Res β) : FP (liftM r : Prog ℝ β) := fun _ => rfl
theorem read (f : Store ℝ → β) : FP (Prog.read f : Prog ℝ β) := fun _ => rfl
theorem assert (c : Bool) : FP (Prog.assert c : Prog ℝ Unit) := by
  cases c
  · exact throw _
  · exact pure' _
theorem need (v : Option (Tensor ℝ)) : FP (Prog.need v : Prog ℝ (Tensor ℝ)) := by
  cases v
  · exact throw _
  · exact pure' _
theorem same {p : Prog ℝ β} (h : ∀ s, (p s).2 = s) : FP p := fun s => by rw [h s]
theorem bind {p : Prog ℝ β} {f : β → Prog ℝ γ} (hp : FP p) (hf : ∀ b, FP (f b)) : FP (p >>= f) := by
  intro s
  have h1 := hp s
  rw [Prog.bind_run]
  rcases hps : p s with ⟨r, s'⟩
  rw [hps] at h1
  cases r with
  | ok b => exact (hf b s').trans h1
  | error e => exact h1
theorem out {p : Prog ℝ β} (h : FP p) {st : Store ℝ} : Out p st ¬ False := fun r st' e =>
  ⟨not_false, .same (by rw [← h st, e])⟩
end FP

/-- solves `FP` goals of do-blocks -/
macro "flats" : tactic => `(tactic| repeat' (first
  | assumption
  | apply FP.pure | apply FP.pure' | apply FP.throw | apply FP.lift | apply FP.read | apply FP.assert | apply FP.need
  | (refine FP.bind ?_ fun _ => ?_)
  | split))

/-- no method touches feature maps -/
structure Flat (m : Mod ℝ) : Prop where
  forward : ∀ x, FP (m.forward x)
  jacobian : ∀ x v w, FP (m.jacobian x v w)
  jvp : ∀ x v u w, FP (m.jvp x v u w)
  jmp : ∀ x v u w, FP (m.jmp x v u w)
  jmjTp : ∀ x v u w a b c, FP (m.jmjTp x v u w a b c)
  vjp : ∀ x v u w, FP (m.vjp x v u w)
  mjp : ∀ x v u w, FP (m.mjp x v u w)
  jTmjp : ∀ x v u w a b c, FP (m.jTmjp x v u w a b c)

section
open MaxPool2d

theorem fp_poolForward (id : Nat) (a : Torch.PoolArgs) (x : Tensor ℝ) : FP (MaxPool2d.forward id a x) := by
  refine FP.bind (FP.lift _) fun r => FP.bind ?_ fun _ => FP.pure _
  exact fun _ => rfl

theorem fp_poolVal (id : Nat) (a : Torch.PoolArgs) (x : Tensor ℝ) (val : Option (Tensor ℝ)) : FP (getVal id a x val) := by
  cases val with
  | none => exact fp_poolForward id a x
  | some v => exact FP.pure' v

theorem fp_poolIdx (id : Nat) : FP (getIdx id : Prog ℝ (Tensor Nat)) := by
  refine FP.same fun s => ?_
  simp only [getIdx]
  split <;> rfl

theorem fp_poolJmp (id : Nat) (a : Torch.PoolArgs) (x : Tensor ℝ) (val : Option (Tensor ℝ)) (m : Tensor ℝ) (w : Wrt) : FP (jmpSome id a x val m w) := by
  cases w with
  | input => exact FP.bind (fp_poolVal _ _ _ _) fun _ => FP.bind (fp_poolIdx _) fun _ => FP.bind (FP.lift _) fun _ => FP.pure _
  | weight => exact FP.pure _
  | other => exact FP.pure _

theorem fp_poolJac (id : Nat) (a : Torch.PoolArgs) (x : Tensor ℝ) (val : Option (Tensor ℝ)) (w : Wrt) : FP (MaxPool2d.jacobian id a x val w) := by
  cases w with
  | input =>
    exact FP.bind (fp_poolVal _ _ _ _) fun _ => FP.bind (FP.lift _) fun _ => FP.bind (FP.lift _) fun _ => FP.bind (FP.assert _) fun _ =>
      FP.bind (FP.lift _) fun _ => fp_poolJmp _ _ _ _ _ _
  | weight => exact FP.pure _
  | other => exact FP.pure _

theorem fp_pool (a : Torch.PoolArgs) (id : Nat) : Flat (MaxPool2d.mod a id) where
  forward := fp_poolForward id a
  jacobian := fp_poolJac id a
  jvp x v u w := by
    show FP (MaxPool2d.jvp x v u w)
    cases w with
    | input => exact FP.throw _
    | weight => exact FP.pure _
    | other => exact FP.pure _
  jmp x v u w := by
    show FP (MaxPool2d.jmp id a x v u w)
    cases u with
    | none => exact fp_poolJac _ _ _ _ _
    | some m => exact fp_poolJmp _ _ _ _ _ _
  jmjTp x v u w fd td db := by
    show FP (MaxPool2d.jmjTp id a x v u w fd td db)
    refine FP.bind (fp_poolVal _ _ _ _) fun _ => ?_
    cases w with
    | input => exact FP.throw _
    | weight => exact FP.pure _
    | other => exact FP.pure _
  vjp x v u w := by
    show FP (MaxPool2d.vjp id a x v u w)
    cases w with
    | input => exact FP.bind (fp_poolVal _ _ _ _) fun _ => FP.bind (fp_poolIdx _) fun _ => FP.bind (FP.lift _) fun _ => FP.pure _
    | weight => exact FP.pure _
    | other => exact FP.pure _
  mjp x v u w := by
    show FP (MaxPool2d.mjp id a x v u w)
    cases u with
    | none => exact fp_poolJac _ _ _ _ _
    | some m =>
      cases w with
      | input => exact FP.bind (fp_poolVal _ _ _ _) fun _ => FP.bind (fp_poolIdx _) fun _ => FP.bind (FP.lift _) fun _ => FP.pure _
      | weight => exact FP.pure _
      | other => exact FP.pure _
  jTmjp x v u w fd td db := by
    show FP (MaxPool2d.jTmjp id a x v u w fd td db)
    refine FP.bind (fp_poolVal _ _ _ _) fun _ => FP.bind (FP.lift _) fun _ => FP.bind (FP.lift _) fun _ => FP.bind (FP.assert _) fun _ =>
      FP.bind (FP.lift _) fun _ => ?_
    have h0 := fp_poolIdx id
    have h : ∀ f : Tensor Nat → Prog ℝ (PyVal ℝ), (∀ i, FP (f i)) → FP (getIdx id >>= f) := fun f hf => FP.bind (fp_poolIdx _) hf
    cases w with
    | input =>
      split
      dsimp only
      split
      · exact FP.bind (FP.assert _) fun _ => h _ fun _ => FP.bind (FP.lift _) fun _ => FP.pure _
      · exact FP.bind (FP.assert _) fun _ => h _ fun _ => FP.bind (FP.lift _) fun _ => FP.pure _
    | weight => flats
    | other => flats

end


theorem empt_pool (id : Nat) (g : PoolDims) :
    Empt ⟨MaxPool2d.mod g.a id, fun _ => True, [g.c, g.h, g.w], [g.c, g.h2, g.w2], [], False, False, False, False⟩ := by
  have hf := fp_pool g.a id
  have key : ∀ {x : Tensor ℝ}, x.shape = [0, g.c, g.h, g.w] → ∃ r, Torch.maxPool2d x g.a = .ok r ∧ r.1.shape = [0, g.c, g.h2, g.w2] := by
    intro x hx
    obtain ⟨r, hr, h, -⟩ := MaxPool2d.forward_ret (B := 0) (X := fun b => b.elim0) g.fits.toPoolSizes (c := g.c) (x := x) ⟨hx, fun b => b.elim0⟩
    exact ⟨r, hr, h.1⟩
  refine {
    tame := tame_pool _ _, mn := fun h => h, sh_of := fun _ h => h
    fwd := @fun st x y st' _ _ hx hy => ?_, fwdOk := @fun st x _ _ _ hx => ?_
    jvp := fun _ _ _ _ => (hf.jvp _ _ _ _).out
    jmp := fun _ _ _ _ => (hf.jmp _ _ _ _).out
    jmpW := fun _ _ _ _ => (hf.jmp _ _ _ _).out
    vjpN := fun _ _ _ => (hf.vjp _ _ _ _).out
    mjpN := fun _ _ _ => (hf.mjp _ _ _ _).out
    jacN := fun _ _ _ => (hf.jacobian _ _ _).out
    jTmjpN := fun _ _ _ => (hf.jTmjp _ _ _ _ _ _ _).out
    jmjTpN := fun _ _ _ => (hf.jmjTp _ _ _ _ _ _ _).out
    vjpWN := fun _ _ _ => (hf.vjp _ _ _ _).out
    mjpWN := fun _ _ _ => (hf.mjp _ _ _ _).out
    vjp := fun _ _ => (hf.vjp _ _ _ _).out
    mjp := fun _ _ => (hf.mjp _ _ _ _).out
    jac := fun _ _ => (hf.jacobian _ _ _).out
    jTmjp := fun _ _ => (hf.jTmjp _ _ _ _ _ _ _).out
    jmjTp := fun _ _ => (hf.jmjTp _ _ _ _ _ _ _).out
    vjpW := fun _ _ => (hf.vjp _ _ _ _).out
    mjpW := fun _ _ => (hf.mjp _ _ _ _).out }
  · have hk := hf.forward x st
    obtain ⟨r, hr, hs⟩ := key hx
    have e : MaxPool2d.forward id g.a x st = (.ok r.1, { st with pidx := fun j => if j = id then some r.2 else st.pidx j }) := by
      simp only [MaxPool2d.forward, hr]; rfl
    rw [show (MaxPool2d.mod g.a id : Mod ℝ).forward x st = MaxPool2d.forward id g.a x st from rfl, e] at hy
    cases hy
    exact ⟨not_false, hs, .same rfl, by simp⟩
  · obtain ⟨r, hr, hs⟩ := key hx
    refine ⟨r.1, { st with pidx := fun j => if j = id then some r.2 else st.pidx j }, ?_⟩
    show MaxPool2d.forward id g.a x st = _
    simp only [MaxPool2d.forward, hr]; rfl

end NNJ
