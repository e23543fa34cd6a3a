import Verif.Spec.FwdMode
import Verif.Spec.Empty
import Verif.Proofs.LooseNet

/-! Forward mode either gives the product or raises. -/

namespace NNJ
open Tensor Matrix

/-- the call returns with `P` if `ok` holds, and raises otherwise -/
def Outcome (ok : Prop) {β : Type} (call : Prog ℝ β) (s : Store ℝ) (P : β → Store ℝ → Prop) : Prop :=
  (ok → Run call s P) ∧ (¬ ok → NoReturn call s)

namespace Outcome
variable {β γ : Type} {s : Store ℝ} {ok ok' : Prop} {call : Prog ℝ β} {P : β → Store ℝ → Prop} {Q : γ → Store ℝ → Prop}

theorem ofRun (h : Run call s P) : Outcome True call s P := ⟨fun _ => h, fun h => (h trivial).elim⟩
theorem ofNo (h : NoReturn call s) : Outcome False call s P := ⟨fun h => h.elim, fun _ => h⟩
theorem congr (h : Outcome ok call s P) (e : ok ↔ ok') : Outcome ok' call s P := by rw [← propext e]; exact h
theorem mono {P' : β → Store ℝ → Prop} (h : Outcome ok call s P) (hP : ∀ r s', P r s' → P' r s') : Outcome ok call s P' :=
  ⟨fun o => (h.1 o).mono hP, h.2⟩

theorem _root_.NNJ.NoReturn.bind {f : β → Prog ℝ γ} (h : NoReturn call s) : NoReturn (call >>= f) s := by
  obtain ⟨e, s', h⟩ := h
  exact ⟨e, s', Prog.bind_error h⟩

theorem bind {f : β → Prog ℝ γ} (h : Outcome ok call s P) (hf : ∀ r s', P r s' → Outcome ok' (f r) s' Q) : Outcome (ok ∧ ok') (call >>= f) s Q := by
  by_cases o : ok
  · obtain ⟨r, s', e, hP⟩ := h.1 o
    have := hf r s' hP
    have e' : (call >>= f) s = f r s' := Prog.bind_ok e
    refine ⟨fun o' => ?_, fun o' => ?_⟩
    · obtain ⟨r', s'', e'', hQ⟩ := this.1 o'.2
      exact ⟨r', s'', by rw [e', e''], hQ⟩
    · obtain ⟨r', s'', e''⟩ := this.2 fun x => o' ⟨o, x⟩
      exact ⟨r', s'', by rw [e', e'']⟩
  · exact ⟨fun o' => (o o'.1).elim, fun _ => (h.2 o).bind⟩

theorem bindRun {f : β → Prog ℝ γ} (h : Run call s P) (hf : ∀ r s', P r s' → Outcome ok' (f r) s' Q) : Outcome ok' (call >>= f) s Q :=
  ((ofRun h).bind hf).congr (by simp)

theorem bindRet {p : Res β} {f : β → Prog ℝ γ} {P : β → Prop} (hp : Ret p P)
    (hf : ∀ b, P b → Outcome ok (f b) s Q) : Outcome ok ((liftM p : Prog ℝ β) >>= f) s Q := by
  obtain ⟨b, rfl, hb⟩ := hp
  exact hf b hb

theorem bindAssert {c : Bool} {f : Unit → Prog ℝ γ} (hc : c = true)
    (h : Outcome ok (f ()) s Q) : Outcome ok (Prog.assert c >>= f) s Q := by subst hc; exact h

theorem bindNeed {call : Prog ℝ (Option (Tensor ℝ))} {f : Tensor ℝ → Prog ℝ γ} {P : Tensor ℝ → Prop}
    {R : Store ℝ → Prop} (hp : Outcome ok call s fun r s' => IsSome P r ∧ R s')
    (hf : ∀ t s', P t → R s' → Outcome ok' (f t) s' Q) : Outcome (ok ∧ ok') (do let t ← call; let t ← Prog.need t; f t) s Q := by
  refine hp.bind fun r s' ⟨hr, hs⟩ => ?_
  cases r with
  | none => exact hr.elim
  | some t => exact hf t s' hr hs

end Outcome

/-- hooks leave pooling indices alone -/
theorem hooks_pidx (v : Tensor ℝ) : ∀ (hs : List Nat) (s : Store ℝ), (∀ q ∈ hs, (s.fmaps q).isSome) →
    Run (Mod.runHooks v hs) s fun _ s' => Still s s' ∧ s'.pidx = s.pidx
  | [], s, _ => Run.pure' ⟨Still.refl, rfl⟩
  | q :: hs, s, h => by
    obtain ⟨L, hL⟩ := Option.isSome_iff_exists.1 (h q (by simp))
    let s1 : Store ℝ := { s with fmaps := fun j => if j = q then some (L ++ [v]) else s.fmaps j }
    have h1 : Still s s1 := ⟨rfl, rfl, fun i hi => by
      show Option.isSome (if i = q then _ else _) = true
      split_ifs
      · rfl
      · exact hi⟩
    have e : Mod.runHook v q s = (.ok (), s1) := by simp only [Mod.runHook, hL]; rfl
    simp only [Mod.runHooks]
    refine Run.bind (P := fun _ s' => s' = s1) (Run.ofEq e rfl) fun _ s' hs' => ?_
    subst hs'
    exact (hooks_pidx v hs s1 fun q' hq' => h1.some q' (h q' (by simp [hq']))).mono fun _ _ h' => ⟨h1.trans h'.1, h'.2⟩

/-- what a pooling layer remembers of its last call -/
def Net.Hot : {s s' : List Nat} → {n k p : Nat} → (N : Net s n s' k p) → {B : Nat} → (Fin B → Fin n → ℝ) → Store ℝ → Prop
  | _, _, _, _, _, .maxpool id g, B, X, st => (MaxPool2d.poolMdl g.a g.c g.h g.w g.h2 g.w2 id).cache B X st
  | _, _, _, _, _, _, _, _, _ => True

section
variable {s s' : List Nat} {n k p : Nat}

/-- the output and the Jacobians, per sample -/
noncomputable def Net.Yb (N : Net s n s' k p) (st : Store ℝ) {B : Nat} (X : Fin B → Fin n → ℝ) (b : Fin B) := N.sem.f (N.w st) (X b)
noncomputable def Net.Jb (N : Net s n s' k p) (st : Store ℝ) {B : Nat} (X : Fin B → Fin n → ℝ) (b : Fin B) := N.sem.J (N.w st) (X b)
noncomputable def Net.JWb (N : Net s n s' k p) (st : Store ℝ) {B : Nat} (X : Fin B → Fin n → ℝ) (b : Fin B) := N.sem.JW (N.w st) (X b)

/-- no `val`, or that of a call just made -/
def Net.Ready (N : Net s n s' k p) {B : Nat} (X : Fin B → Fin n → ℝ) (st : Store ℝ) (val : Option (Tensor ℝ)) : Prop :=
  ∀ v ∈ val, IsBatch v B s' k (N.Yb st X) ∧ N.Hot X st

theorem Net.Ready.none {N : Net s n s' k p} {B : Nat} {X : Fin B → Fin n → ℝ} {st : Store ℝ} : N.Ready X st none := by
  intro v hv; cases hv

theorem Net.w_param (N : Net s n s' k p) {st st' : Store ℝ} (e : st'.param = st.param) : N.w st' = N.w st := by
  have := N.lgood.w_of e
  rwa [N.lmdl_eqs.2.2.1] at this

theorem Net.lvok (N : Net s n s' k p) {B : Nat} {X : Fin B → Fin n → ℝ} {st : Store ℝ} {v : Tensor ℝ} (h : IsBatch v B s' k (N.Yb st X)) :
    N.lmdl.VOk st X v := .inr (by rw [N.lY]; exact h)
end

/-- `module(x)` -/
theorem Net.Loose.callHot : {s s' : List Nat} → {n k p : Nat} → {N : Net s n s' k p} → {st : Store ℝ} → {B : Nat} → {X : Fin B → Fin n → ℝ} →
    {x : Tensor ℝ} → N.Loose st → 0 < B → IsBatch x B s n X →
    Run (N.mod.call x) st fun v st' => IsBatch v B s' k (N.Yb st X) ∧ Still st st' ∧ N.Hot X st' := by
  intro s s' n k p N st B X x h hB hx
  have gen : Run (N.mod.call x) st fun v st' => IsBatch v B s' k (N.Yb st X) ∧ Still st st' := by
    have := N.lgood.call h.wired hB hx
    rwa [N.lmdl_eqs.1, N.lY] at this
  cases N with
  | maxpool id g =>
    have hs := h.hooks
    simp only [Net.mod, Mod.call]
    refine (MaxPool2d.forward_run (id := id) g.fits.toPoolSizes hx).bind fun v s1 ⟨hv, h1, hc⟩ => ?_
    refine Run.bind (P := fun hs s' => hs = s1.hooks id ∧ s' = s1) ⟨_, _, rfl, rfl, rfl⟩ fun hs' s' ⟨hh, hs'⟩ => ?_
    subst hh; subst hs'
    refine (hooks_pidx v _ s' fun q hq => (hs.still h1.still) _ q hq).bind fun _ s2 h2 => ?_
    refine Run.pure ⟨hv, h1.still.trans h2.1, ?_⟩
    obtain ⟨idx, e1, e2⟩ := hc
    exact ⟨idx, by rw [h2.2]; exact e1, e2⟩
  | _ => exact gen.mono fun v s' hv => ⟨hv.1, hv.2, trivial⟩

/-- forward mode of one network: the product or an exception -/
structure Net.FM {s s' : List Nat} {n k p : Nat} (N : Net s n s' k p) : Prop where
  jvpI : ∀ {st B X x u U val}, N.Loose st → 0 < B → IsBatch x B s n X → IsVec u B n U → N.Ready X st val →
    Outcome (N.Through fun _ => False) (N.mod.jvp x val u .input) st fun o st' =>
      IsSome (fun t => IsVec t B k fun b => N.Jb st X b *ᵥ U b) o ∧ Still st st'
  jvpW : ∀ {st B X x u U val}, N.Loose st → 0 < B → IsBatch x B s n X → IsVec u B p U → (∀ v ∈ val, IsBatch v B s' k (N.Yb st X)) →
    Outcome (N.ThroughW fun _ => False) (N.mod.jvp x val u .weight) st fun o st' =>
      OptW p (fun t => IsVec t B k fun b => N.JWb st X b *ᵥ U b) o ∧ Still st st'
  jmpI : ∀ {st B X x r A Z val}, N.Loose st → 0 < B → IsBatch x B s n X → IsMat A B n r Z → N.Ready X st val →
    Outcome (N.Through fun m => m = r) (N.mod.jmp x val (some A) .input) st fun o st' =>
      IsSome (fun t => IsMat t B k r fun b => N.Jb st X b * Z b) o ∧ Still st st'
  jmpW : ∀ {st B X x r A Z val}, N.Loose st → 0 < B → IsBatch x B s n X → IsMat A B p r Z → (∀ v ∈ val, IsBatch v B s' k (N.Yb st X)) →
    Outcome (N.ThroughW fun m => m = r) (N.mod.jmp x val (some A) .weight) st fun o st' =>
      OptW p (fun t => IsMat t B k r fun b => N.JWb st X b * Z b) o ∧ Still st st'

/-- for all members of a chain -/
def Chain.FM : {s s' : List Nat} → {n k p l : Nat} → Chain s n s' k p l → Prop
  | _, _, _, _, _, _, .nil _ _ _ _ => True
  | _, _, _, _, _, _, .snoc c m => c.FM ∧ m.FM

section
variable {s s' : List Nat} {n k p l : Nat}
noncomputable def Chain.Yb (c : Chain s n s' k p l) (st : Store ℝ) {B : Nat} (X : Fin B → Fin n → ℝ) (b : Fin B) := c.sem.f (c.w st) (X b)
noncomputable def Chain.Jb (c : Chain s n s' k p l) (st : Store ℝ) {B : Nat} (X : Fin B → Fin n → ℝ) (b : Fin B) := c.sem.J (c.w st) (X b)
noncomputable def Chain.JWb (c : Chain s n s' k p l) (st : Store ℝ) {B : Nat} (X : Fin B → Fin n → ℝ) (b : Fin B) := c.sem.JW (c.w st) (X b)

variable {s'' : List Nat} {j q : Nat} (c : Chain s n s' k p l) (m : Net s' k s'' j q) (st : Store ℝ) {B : Nat} (X : Fin B → Fin n → ℝ) (b : Fin B)
theorem Chain.Yb_snoc : (Chain.snoc c m).Yb st X b = m.Yb st (c.Yb st X) b := by
  simp only [Chain.Yb, Net.Yb, Chain.sem, Chain.w, Sem.comp, MChain.wl_append, MChain.wr_append]
theorem Chain.Jb_snoc : (Chain.snoc c m).Jb st X b = m.Jb st (c.Yb st X) b * c.Jb st X b := by
  simp only [Chain.Jb, Chain.Yb, Net.Jb, Chain.sem, Chain.w, Sem.comp, MChain.wl_append, MChain.wr_append]
theorem Chain.JWb_snoc : (Chain.snoc c m).JWb st X b = hcat (m.Jb st (c.Yb st X) b * c.JWb st X b) (m.JWb st (c.Yb st X) b) := by
  simp only [Chain.JWb, Chain.Yb, Net.Jb, Net.JWb, Chain.sem, Chain.w, Sem.comp, MChain.wl_append, MChain.wr_append]
end

/-- a chain whose members have their parameters, in a state without known wiring -/
structure Chain.Loose {s s' : List Nat} {n k p l : Nat} (c : Chain s n s' k p l) (st : Store ℝ) : Prop where
  shapes : c.Shapes st
  hooks : HooksOk st

theorem Chain.Loose.still {s s' : List Nat} {n k p l : Nat} {c : Chain s n s' k p l} {st st' : Store ℝ} (h : c.Loose st) (hs : Still st st') : c.Loose st' :=
  ⟨c.shapes_of (fun i => by rw [hs.param]) h.shapes, h.hooks.still hs⟩

theorem Net.Yb_of {s s' : List Nat} {n k p : Nat} (N : Net s n s' k p) {st st' : Store ℝ} (e : st'.param = st.param) {B : Nat} (X : Fin B → Fin n → ℝ) :
    N.Yb st' X = N.Yb st X := by funext b; simp only [Net.Yb, N.w_param e]
theorem Net.Jb_of {s s' : List Nat} {n k p : Nat} (N : Net s n s' k p) {st st' : Store ℝ} (e : st'.param = st.param) {B : Nat} (X : Fin B → Fin n → ℝ) :
    N.Jb st' X = N.Jb st X := by funext b; simp only [Net.Jb, N.w_param e]
theorem Net.JWb_of {s s' : List Nat} {n k p : Nat} (N : Net s n s' k p) {st st' : Store ℝ} (e : st'.param = st.param) {B : Nat} (X : Fin B → Fin n → ℝ) :
    N.JWb st' X = N.JWb st X := by funext b; simp only [Net.JWb, N.w_param e]

/-- the loop of `jvp` wrt input -/
theorem Chain.jvpInput_out {Q : Tensor ℝ → Store ℝ → Prop} {B : Nat} : {s s' : List Nat} → {n k p l : Nat} → (c : Chain s n s' k p l) → c.FM →
    {st : Store ℝ} → {X : Fin B → Fin n → ℝ} → {x u : Tensor ℝ} → {U : Fin B → Fin n → ℝ} → c.Loose st → 0 < B → IsBatch x B s n X → IsVec u B n U →
    (rest : List (Mod ℝ)) → {ok' : Prop} →
    (∀ y a st', IsBatch y B s' k (c.Yb st X) → IsVec a B k (fun b => c.Jb st X b *ᵥ U b) → Still st st' → Outcome ok' (Sequential.jvpInput rest y a) st' Q) →
    Outcome ((c.Through fun _ => False) ∧ ok') (Sequential.jvpInput (c.mods ++ rest) x u) st Q
  | _, _, _, _, _, _, .nil _ _ _ _, _, st, X, x, u, U, _, _, hx, hu, rest, ok', hk => by
    simp only [Chain.Through, Chain.mods, List.nil_append, true_and]
    refine hk x u st (hx.congr fun b i => ?_) (hu.congr fun b i => ?_) Still.refl
    · simp only [Chain.Yb, Chain.sem, Sem.id]
    · simp only [Chain.Jb, Chain.sem, Sem.id, one_mulVec]
  | _, _, _, _, _, _, .snoc c m, hc, st, X, x, u, U, hl, hB, hx, hu, rest, ok', hk => by
    simp only [Chain.Through, Chain.mods, List.append_assoc, List.singleton_append, and_assoc]
    simp only [Chain.FM] at hc
    have hs := hl.shapes
    simp only [Chain.Shapes] at hs
    refine c.jvpInput_out hc.1 ⟨hs.1, hl.hooks⟩ hB hx hu (m.mod :: rest) fun y a st' hy ha h1 => ?_
    have hm : m.Loose st' := ⟨m.shapes_of (fun i => by rw [h1.param]) hs.2, hl.hooks.still h1⟩
    simp only [Sequential.jvpInput]
    refine Outcome.bindRun (hm.callHot hB hy) fun v st2 ⟨hv, h2, hh⟩ => ?_
    have hm2 := hm.still h2
    refine Outcome.bindNeed (hc.2.jvpI hm2 hB hy ha ?_) fun t st3 ht h3 => ?_
    · intro v' hv'; cases hv'; exact ⟨by rw [m.Yb_of h2.param]; exact hv, hh⟩
    · have e := h2.param.trans h1.param
      refine hk v t st3 (hv.congr fun b i => ?_) (ht.congr fun b i => ?_) ((h1.trans h2).trans h3)
      · rw [Chain.Yb_snoc, m.Yb_of h1.param]
      · rw [Chain.Jb_snoc, m.Jb_of e, mulVec_mulVec]

/-- the loop of `jmp` wrt input -/
theorem Chain.jmpInput_out {Q : Tensor ℝ → Store ℝ → Prop} {B r : Nat} : {s s' : List Nat} → {n k p l : Nat} → (c : Chain s n s' k p l) → c.FM →
    {st : Store ℝ} → {X : Fin B → Fin n → ℝ} → {x u : Tensor ℝ} → {U : Fin B → Matrix (Fin n) (Fin r) ℝ} → c.Loose st → 0 < B → IsBatch x B s n X → IsMat u B n r U →
    (rest : List (Mod ℝ)) → {ok' : Prop} →
    (∀ y a st', IsBatch y B s' k (c.Yb st X) → IsMat a B k r (fun b => c.Jb st X b * U b) → Still st st' → Outcome ok' (Sequential.jmpInput rest y a) st' Q) →
    Outcome ((c.Through fun m => m = r) ∧ ok') (Sequential.jmpInput (c.mods ++ rest) x u) st Q
  | _, _, _, _, _, _, .nil _ _ _ _, _, st, X, x, u, U, _, _, hx, hu, rest, ok', hk => by
    simp only [Chain.Through, Chain.mods, List.nil_append, true_and]
    refine hk x u st (hx.congr fun b i => ?_) (hu.congr fun b i j => ?_) Still.refl
    · simp only [Chain.Yb, Chain.sem, Sem.id]
    · simp only [Chain.Jb, Chain.sem, Sem.id, Matrix.one_mul]
  | _, _, _, _, _, _, .snoc c m, hc, st, X, x, u, U, hl, hB, hx, hu, rest, ok', hk => by
    simp only [Chain.Through, Chain.mods, List.append_assoc, List.singleton_append, and_assoc]
    simp only [Chain.FM] at hc
    have hs := hl.shapes
    simp only [Chain.Shapes] at hs
    refine c.jmpInput_out hc.1 ⟨hs.1, hl.hooks⟩ hB hx hu (m.mod :: rest) fun y a st' hy ha h1 => ?_
    have hm : m.Loose st' := ⟨m.shapes_of (fun i => by rw [h1.param]) hs.2, hl.hooks.still h1⟩
    simp only [Sequential.jmpInput]
    refine Outcome.bindRun (hm.callHot hB hy) fun v st2 ⟨hv, h2, hh⟩ => ?_
    have hm2 := hm.still h2
    refine Outcome.bindNeed (hc.2.jmpI hm2 hB hy ha ?_) fun t st3 ht h3 => ?_
    · intro v' hv'; cases hv'; exact ⟨by rw [m.Yb_of h2.param]; exact hv, hh⟩
    · have e := h2.param.trans h1.param
      refine hk v t st3 (hv.congr fun b i => ?_) (ht.congr fun b i j => ?_) ((h1.trans h2).trans h3)
      · rw [Chain.Yb_snoc, m.Yb_of h1.param]
      · rw [Chain.Jb_snoc, m.Jb_of e, Matrix.mul_assoc]

/-- the loop of `jvp` wrt weight -/
theorem Chain.jvpWeight_out {Q : Option (Tensor ℝ) × Nat → Store ℝ → Prop} {B P : Nat} {u : Tensor ℝ} {U : Fin B → Fin P → ℝ} (hu : IsVec u B P U) :
    {s s' : List Nat} → {n k p l : Nat} → (c : Chain s n s' k p l) → (hN : p ≤ P) → c.FM →
    {st : Store ℝ} → {X : Fin B → Fin n → ℝ} → {x : Tensor ℝ} → c.Loose st → 0 < B → IsBatch x B s n X →
    (rest : List (Mod ℝ)) → {ok' : Prop} →
    (∀ y acc st', IsBatch y B s' k (c.Yb st X) → OptW p (fun t => IsVec t B k (fun b => c.JWb st X b *ᵥ fun i => U b (Fin.castLE (by omega) i))) acc →
      Still st st' → Outcome ok' (Sequential.jvpWeight u rest y p acc) st' Q) →
    Outcome ((c.ThroughW (fun _ => False)) ∧ ok') (Sequential.jvpWeight u (c.mods ++ rest) x 0 none) st Q
  | _, _, _, _, _, _, .nil _ _ _ _, _, _, st, X, x, _, _, hx, rest, ok', hk => by
    simp only [Chain.ThroughW, Chain.mods, List.nil_append, true_and]
    refine hk x none st (hx.congr fun b i => ?_) (by simp [OptW]) Still.refl
    simp only [Chain.Yb, Chain.sem, Sem.id]
  | _, _, _, _, _, _, @Chain.snoc _ _ sK _ kc jm pc qm _ c m, hN, hc, st, X, x, hl, hB, hx, rest, ok', hk => by
    simp only [Chain.ThroughW, Chain.mods, List.append_assoc, List.singleton_append, and_assoc]
    simp only [Chain.FM] at hc
    have hs := hl.shapes
    simp only [Chain.Shapes] at hs
    refine c.jvpWeight_out hu (by omega) hc.1 ⟨hs.1, hl.hooks⟩ hB hx (m.mod :: rest) fun y acc st' hy ha h1 => ?_
    have hm : m.Loose st' := ⟨m.shapes_of (fun i => by rw [h1.param]) hs.2, hl.hooks.still h1⟩
    simp only [Sequential.jvpWeight]
    refine Outcome.bindRun (hm.callHot hB hy) fun v st2 ⟨hv, h2, hh⟩ => ?_
    have hm2 := hm.still h2
    have e2 := h2.param.trans h1.param
    have hAcc : Outcome (pc = 0 ∨ m.Through (fun _ => False)) (Sequential.through acc fun a => m.mod.jvp y (some v) a .input) st2 fun o st3 =>
        OptW pc (fun t => IsVec t B jm (fun b => m.Jb st (c.Yb st X) b *ᵥ (c.JWb st X b *ᵥ fun i => U b (Fin.castLE (by omega) i)))) o ∧ Still st2 st3 := by
      unfold OptW at ha ⊢
      split_ifs at ha ⊢ with h0
      · replace ha : acc = none := ha
        subst ha
        exact (Outcome.ofRun (Run.pure ⟨rfl, Still.refl⟩)).congr (by simp [h0])
      · cases acc with
        | none => exact ha.elim
        | some t =>
          refine ((hc.2.jvpI hm2 hB hy ha ?_).mono fun r st3 h3 => ?_).congr (by simp [h0])
          · intro v' hv'; cases hv'; exact ⟨by rw [m.Yb_of h2.param]; exact hv, hh⟩
          · rw [m.Jb_of e2] at h3; exact h3
    refine hAcc.bind fun acc' st3 ⟨hacc', h3⟩ => ?_
    have hm3 := hm2.still h3
    have e3 := h3.param.trans e2
    have hnp : m.mod.nParams = qm := by rw [← m.lmdl_eqs.1]; exact m.lgood.nParams
    rw [hnp]
    refine Outcome.bindRet (slice_vec (lo := pc) (m := qm) hu hN) fun vec hvec => ?_
    refine (hc.2.jvpW (val := some v) hm3 hB hy hvec ?_).bind fun fl st4 ⟨hfl, h4⟩ => ?_
    · intro v' hv'; cases hv'; rw [m.Yb_of (h3.param.trans h2.param)]; exact hv
    rw [m.JWb_of e3] at hfl
    refine Outcome.bindRet (MChain.accum_vec hacc' hfl ?_ ?_) fun acc4 h => ?_
    · intro h0; funext b; rw [MChain.mulVec_zero_dim h0, mulVec_zero]; rfl
    · intro h0; funext b; rw [MChain.mulVec_zero_dim h0]; rfl
    refine hk v acc4 st4 (hv.congr fun b i => ?_) (OptW.mono h fun t ht => ht.congr fun b i => ?_) (((h1.trans h2).trans h3).trans h4)
    · rw [Chain.Yb_snoc, m.Yb_of h1.param]
    · rw [Chain.JWb_snoc, hcat_mulVec, ← mulVec_mulVec]
      rfl

/-- the loop of `jmp` wrt weight -/
theorem Chain.jmpWeight_out {Q : Option (Tensor ℝ) × Nat → Store ℝ → Prop} {B P r : Nat} {u : Tensor ℝ} {U : Fin B → Matrix (Fin P) (Fin r) ℝ} (hu : IsMat u B P r U) :
    {s s' : List Nat} → {n k p l : Nat} → (c : Chain s n s' k p l) → (hN : p ≤ P) → c.FM →
    {st : Store ℝ} → {X : Fin B → Fin n → ℝ} → {x : Tensor ℝ} → c.Loose st → 0 < B → IsBatch x B s n X →
    (rest : List (Mod ℝ)) → {ok' : Prop} →
    (∀ y acc st', IsBatch y B s' k (c.Yb st X) → OptW p (fun t => IsMat t B k r (fun b => c.JWb st X b * Matrix.of fun i => U b (Fin.castLE (by omega) i))) acc →
      Still st st' → Outcome ok' (Sequential.jmpWeight u rest y p acc) st' Q) →
    Outcome ((c.ThroughW (fun m => m = r)) ∧ ok') (Sequential.jmpWeight u (c.mods ++ rest) x 0 none) st Q
  | _, _, _, _, _, _, .nil _ _ _ _, _, _, st, X, x, _, _, hx, rest, ok', hk => by
    simp only [Chain.ThroughW, Chain.mods, List.nil_append, true_and]
    refine hk x none st (hx.congr fun b i => ?_) (by simp [OptW]) Still.refl
    simp only [Chain.Yb, Chain.sem, Sem.id]
  | _, _, _, _, _, _, @Chain.snoc _ _ sK _ kc jm pc qm _ c m, hN, hc, st, X, x, hl, hB, hx, rest, ok', hk => by
    simp only [Chain.ThroughW, Chain.mods, List.append_assoc, List.singleton_append, and_assoc]
    simp only [Chain.FM] at hc
    have hs := hl.shapes
    simp only [Chain.Shapes] at hs
    refine c.jmpWeight_out hu (by omega) hc.1 ⟨hs.1, hl.hooks⟩ hB hx (m.mod :: rest) fun y acc st' hy ha h1 => ?_
    have hm : m.Loose st' := ⟨m.shapes_of (fun i => by rw [h1.param]) hs.2, hl.hooks.still h1⟩
    simp only [Sequential.jmpWeight]
    refine Outcome.bindRun (hm.callHot hB hy) fun v st2 ⟨hv, h2, hh⟩ => ?_
    have hm2 := hm.still h2
    have e2 := h2.param.trans h1.param
    have hAcc : Outcome (pc = 0 ∨ m.Through (fun m => m = r)) (Sequential.through acc fun a => m.mod.jmp y (some v) (some a) .input) st2 fun o st3 =>
        OptW pc (fun t => IsMat t B jm r (fun b => m.Jb st (c.Yb st X) b * (c.JWb st X b * Matrix.of fun i => U b (Fin.castLE (by omega) i)))) o ∧ Still st2 st3 := by
      unfold OptW at ha ⊢
      split_ifs at ha ⊢ with h0
      · replace ha : acc = none := ha
        subst ha
        exact (Outcome.ofRun (Run.pure ⟨rfl, Still.refl⟩)).congr (by simp [h0])
      · cases acc with
        | none => exact ha.elim
        | some t =>
          refine ((hc.2.jmpI hm2 hB hy ha ?_).mono fun r st3 h3 => ?_).congr (by simp [h0])
          · intro v' hv'; cases hv'; exact ⟨by rw [m.Yb_of h2.param]; exact hv, hh⟩
          · rw [m.Jb_of e2] at h3; exact h3
    refine hAcc.bind fun acc' st3 ⟨hacc', h3⟩ => ?_
    have hm3 := hm2.still h3
    have e3 := h3.param.trans e2
    have hnp : m.mod.nParams = qm := by rw [← m.lmdl_eqs.1]; exact m.lgood.nParams
    rw [hnp]
    refine Outcome.bindRet (slice_rows (lo := pc) (q := qm) hu hN) fun vec hvec => ?_
    refine (hc.2.jmpW (val := some v) hm3 hB hy hvec ?_).bind fun fl st4 ⟨hfl, h4⟩ => ?_
    · intro v' hv'; cases hv'; rw [m.Yb_of (h3.param.trans h2.param)]; exact hv
    rw [m.JWb_of e3] at hfl
    refine Outcome.bindRet (MChain.accum_mat hacc' hfl ?_ ?_) fun acc4 h => ?_
    · intro h0; funext b; rw [MChain.mul_zero_dim h0, Matrix.mul_zero]; rfl
    · intro h0; funext b; exact MChain.mul_zero_dim h0 _ _
    refine hk v acc4 st4 (hv.congr fun b i => ?_) (OptW.mono h fun t ht => ht.congr fun b i _ => ?_) (((h1.trans h2).trans h3).trans h4)
    · rw [Chain.Yb_snoc, m.Yb_of h1.param]
    · rw [Chain.JWb_snoc, hcat_mul, Matrix.mul_assoc]
      rfl

section
variable {s s' : List Nat} {n k p l : Nat} {c : Chain s n s' k p l} {st : Store ℝ} {B : Nat} {X : Fin B → Fin n → ℝ} {x : Tensor ℝ}

theorem Chain.nParams_mods (c : Chain s n s' k p l) : Sequential.nParams c.mods = p := by
  rw [← c.lchain_eqs.1]
  exact MChain.nParamsL c.lgood.2.2

theorem Chain.seq_jvpI (hc : c.FM) (hl : c.Loose st) (hB : 0 < B) (hx : IsBatch x B s n X) {u : Tensor ℝ} {U} (hu : IsVec u B n U) (id : Nat) (val) :
    Outcome (c.Through fun _ => False) ((Sequential.mod id true c.mods).jvp x val u .input) st fun o st' =>
      IsSome (fun t => IsVec t B k fun b => c.Jb st X b *ᵥ U b) o ∧ Still st st' := by
  refine Outcome.bindAssert rfl ?_
  have := c.jvpInput_out (Q := fun t st' => IsVec t B k (fun b => c.Jb st X b *ᵥ U b) ∧ Still st st') hc hl hB hx hu [] (ok' := True)
    fun y a st' _ ha h => Outcome.ofRun (Run.pure ⟨ha, h⟩)
  rw [List.append_nil] at this
  exact (this.bind (ok' := True) fun t st' ht => Outcome.ofRun (Run.pure ht)).congr (by simp)

theorem Chain.seq_jmpI (hc : c.FM) (hl : c.Loose st) (hB : 0 < B) (hx : IsBatch x B s n X) {r : Nat} {u : Tensor ℝ} {U} (hu : IsMat u B n r U) (id : Nat) (val) :
    Outcome (c.Through fun m => m = r) ((Sequential.mod id true c.mods).jmp x val (some u) .input) st fun o st' =>
      IsSome (fun t => IsMat t B k r fun b => c.Jb st X b * U b) o ∧ Still st st' := by
  refine Outcome.bindAssert rfl ?_
  have := c.jmpInput_out (Q := fun t st' => IsMat t B k r (fun b => c.Jb st X b * U b) ∧ Still st st') hc hl hB hx hu [] (ok' := True)
    fun y a st' _ ha h => Outcome.ofRun (Run.pure ⟨ha, h⟩)
  rw [List.append_nil] at this
  exact (this.bind (ok' := True) fun t st' ht => Outcome.ofRun (Run.pure ht)).congr (by simp)

theorem Chain.seq_jvpW (hc : c.FM) (hl : c.Loose st) (hB : 0 < B) (hx : IsBatch x B s n X) {u : Tensor ℝ} {U} (hu : IsVec u B p U) (id : Nat) (val) :
    Outcome (c.ThroughW fun _ => False) ((Sequential.mod id true c.mods).jvp x val u .weight) st fun o st' =>
      OptW p (fun t => IsVec t B k fun b => c.JWb st X b *ᵥ U b) o ∧ Still st st' := by
  refine Outcome.bindAssert rfl ?_
  have := c.jvpWeight_out (Q := fun t st' => (OptW p (fun t => IsVec t B k fun b => c.JWb st X b *ᵥ U b) t.1 ∧ Still st st') ∧ t.2 = p) hu le_rfl hc hl hB hx []
    (ok' := True) fun y a st' _ ha h => Outcome.ofRun (Run.pure ⟨⟨ha, h⟩, rfl⟩)
  rw [List.append_nil] at this
  refine (this.bind (ok' := True) fun t st' ht => ?_).congr (by simp)
  obtain ⟨t1, t2⟩ := t
  exact Outcome.bindAssert (by rw [c.nParams_mods]; exact decide_eq_true ht.2) (Outcome.ofRun (Run.pure ht.1))

theorem Chain.seq_jmpW (hc : c.FM) (hl : c.Loose st) (hB : 0 < B) (hx : IsBatch x B s n X) {r : Nat} {u : Tensor ℝ} {U} (hu : IsMat u B p r U) (id : Nat) (val) :
    Outcome (c.ThroughW fun m => m = r) ((Sequential.mod id true c.mods).jmp x val (some u) .weight) st fun o st' =>
      OptW p (fun t => IsMat t B k r fun b => c.JWb st X b * U b) o ∧ Still st st' := by
  refine Outcome.bindAssert rfl ?_
  have := c.jmpWeight_out (Q := fun t st' => (OptW p (fun t => IsMat t B k r fun b => c.JWb st X b * U b) t.1 ∧ Still st st') ∧ t.2 = p) hu le_rfl hc hl hB hx []
    (ok' := True) fun y a st' _ ha h => Outcome.ofRun (Run.pure ⟨⟨ha, h⟩, rfl⟩)
  rw [List.append_nil] at this
  refine (this.bind (ok' := True) fun t st' ht => ?_).congr (by simp)
  obtain ⟨t1, t2⟩ := t
  exact Outcome.bindAssert (by rw [c.nParams_mods]; exact decide_eq_true ht.2) (Outcome.ofRun (Run.pure ht.1))

/-- layers that support everything -/
theorem Net.fm_leaf {N : Net s n s' k p} (hI : N.FwdI) (hW : N.FwdW) (hT : ∀ q, N.Through q) (hTW : ∀ q, N.ThroughW q) : N.FM where
  jvpI := fun {st B X x u U val} hl hB hx hu hv => by
    have := N.lgood.jvpI (N.lmdl_eqs.2.2.2.1.2 hI) hl.wired hB hx hu val fun v h => N.lvok (hv v h).1
    rw [N.lmdl_eqs.1, N.lJ] at this
    exact (Outcome.ofRun this).congr ⟨fun _ => hT _, fun _ => trivial⟩
  jvpW := fun {st B X x u U val} hl hB hx hu hv => by
    have := N.lgood.jvpW (N.lmdl_eqs.2.2.2.1.2 hI) (N.lmdl_eqs.2.2.2.2.2 hW) hl.wired hB hx hu val fun v h => N.lvok (hv v h)
    rw [N.lmdl_eqs.1, N.lJW] at this
    exact (Outcome.ofRun this).congr ⟨fun _ => hTW _, fun _ => trivial⟩
  jmpI := fun {st B X x r A Z val} hl hB hx hu hv => by
    have := N.lgood.jmpI (N.lmdl_eqs.2.2.2.1.2 hI) hl.wired hB hx hu val fun v h => N.lvok (hv v h).1
    rw [N.lmdl_eqs.1, N.lJ] at this
    exact (Outcome.ofRun this).congr ⟨fun _ => hT _, fun _ => trivial⟩
  jmpW := fun {st B X x r A Z val} hl hB hx hu hv => by
    have := N.lgood.jmpW (N.lmdl_eqs.2.2.2.1.2 hI) (N.lmdl_eqs.2.2.2.2.2 hW) hl.wired hB hx hu val fun v h => N.lvok (hv v h)
    rw [N.lmdl_eqs.1, N.lJW] at this
    exact (Outcome.ofRun this).congr ⟨fun _ => hTW _, fun _ => trivial⟩
end

theorem Net.fm_conv (id wId : Nat) (bId : Option Nat) (g : ConvDims) : (Net.conv id wId bId g).FM where
  jvpI := fun {st B X x u U val} hl hB hx hu hv => (Outcome.ofNo ⟨_, _, rfl⟩).congr (by simp [Net.Through])
  jvpW := fun {st B X x u U val} hl hB hx hu hv => (Outcome.ofNo ⟨_, _, rfl⟩).congr (by simp [Net.ThroughW])
  jmpI := fun {st B X x r A Z val} hl hB hx hu hv => (Outcome.ofNo ⟨_, _, rfl⟩).congr (by simp [Net.Through])
  jmpW := fun {st B X x r A Z val} hl hB hx hu hv => (Outcome.ofNo ⟨_, _, rfl⟩).congr (by simp [Net.ThroughW])

theorem Net.fm_upsample (id c h w r : Nat) (hc hh hw hr) : (Net.upsample id c h w r hc hh hw hr).FM where
  jvpI := fun {st B X x u U val} hl hB hx hu hv => (Outcome.ofNo ⟨_, _, rfl⟩).congr (by simp [Net.Through])
  jvpW := fun {st B X x u U val} hl hB hx hu hv => (Outcome.ofRun ⟨none, st, rfl, by simp [OptW], Still.refl⟩).congr (by simp [Net.ThroughW])
  jmpI := fun {st B X x r A Z val} hl hB hx hu hv => (Outcome.ofNo ⟨_, _, rfl⟩).congr (by simp [Net.Through])
  jmpW := fun {st B X x r A Z val} hl hB hx hu hv => (Outcome.ofRun ⟨none, st, rfl, by simp [OptW], Still.refl⟩).congr (by simp [Net.ThroughW])

namespace MaxPool2d
variable {a : Torch.PoolArgs} {c h w h2 w2 : Nat} {id : Nat} {B : Nat} {X : Fin B → Fin (c * h * w) → ℝ} {x A : Tensor ℝ} {st : Store ℝ}

/-- the gather reshapes the columns like the inputs -/
theorem jmpBody_err (hB : 0 < B) (hn : 0 < c * h * w) (hx : IsBatch x B [c, h, w] (c * h * w) X) {val : Tensor ℝ} {Y} (hv : IsBatch val B [c, h2, w2] (c * h2 * w2) Y)
    {r : Nat} {Z} (hA : IsMat A B (c * h * w) r Z) (hr : c * h * w ≠ r) (idx : Tensor Nat) : jmpBody x val A idx = .error .shape := by
  have hd : ∀ {i d}, [B, c * h * w, r][i]? = some d → A.dim i = .ok d := by
    intro i d hi; simp only [Tensor.dim, hA.1, hi]
  have : ¬ size [B * c, h * w, c, h, w] = A.numel := by
    rw [Tensor.numel, hA.1]
    simp only [size_cons, size_nil]
    intro e
    have e' : B * (c * h * w) * (c * h * w) = B * (c * h * w) * r := by rw [show B * (c * h * w) * r = B * (c * h * w * (r * 1)) by ring, ← e]; ring
    exact hr (Nat.eq_of_mul_eq_mul_left (Nat.mul_pos hB hn) e')
  simp only [jmpBody, hx.dims4, hv.dims4, Res.bind_ok, assertR, hd (i := 0) rfl, hd (i := 1) rfl, Tensor.reshape, if_neg this, if_true, decide_true]
  rfl

/-- `MaxPool2d.jmp` wrt input -/
theorem jmp_out (hf : PoolSizes a h w h2 w2) (hc : 0 < c) (hB : 0 < B) (hx : IsBatch x B [c, h, w] (c * h * w) X) {r : Nat} {Z}
    (hA : IsMat A B (c * h * w) r Z) {val : Option (Tensor ℝ)}
    (hv : ∀ v ∈ val, IsBatch v B [c, h2, w2] (c * h2 * w2) ((poolMdl a c h w h2 w2 id).Y st X) ∧ (poolMdl a c h w h2 w2 id).cache B X st) :
    Outcome (c * h * w = r) (MaxPool2d.jmp id a x val (some A) .input) st fun o st' =>
      IsSome (fun t => IsMat t B (c * h2 * w2) r fun b => poolJ a c h w h2 w2 (X b) * Z b) o ∧ Still st st' := by
  have key : ∀ v st', IsBatch v B [c, h2, w2] (c * h2 * w2) ((poolMdl a c h w h2 w2 id).Y st X) → Still st st' → (poolMdl a c h w h2 w2 id).cache B X st' →
      Outcome (c * h * w = r) (do
        let idx ← getIdx id
        let r ← (liftM (jmpBody x v A idx) : Prog ℝ _)
        pure (some r)) st' fun o st' => IsSome (fun t => IsMat t B (c * h2 * w2) r fun b => poolJ a c h w h2 w2 (X b) * Z b) o ∧ Still st st' := by
    intro v st' hv hs hc'
    by_cases e : c * h * w = r
    · subst e
      refine (Outcome.ofRun ?_).congr (by simp)
      exact getIdx_run hc' fun idx hidx => Run.bindLift (jmpBody_ret hf hx hv hidx hA) fun t ht => Run.pure ⟨ht, hs⟩
    · refine (Outcome.ofNo ?_).congr (by simpa using e)
      obtain ⟨idx, h1, _⟩ := hc'
      have he := jmpBody_err hB (Nat.mul_pos (Nat.mul_pos hc hf.hh) hf.hw) hx hv hA e idx
      have h2 : getIdx id st' = (.ok idx, st') := by simp [getIdx, h1]
      refine ⟨.shape, st', ?_⟩
      rw [Prog.bind_ok h2, he]
      rfl
  cases val with
  | none => exact Outcome.bindRun (forward_run hf hx) fun v st' hv => key v st' hv.1 hv.2.1.still hv.2.2
  | some v => exact key v st (hv v rfl).1 Still.refl (hv v rfl).2
end MaxPool2d

theorem Net.fm_pool (id : Nat) (g : PoolDims) : (Net.maxpool id g).FM where
  jvpI := fun {st B X x u U val} hl hB hx hu hv => (Outcome.ofNo ⟨_, _, rfl⟩).congr (by simp [Net.Through])
  jvpW := fun {st B X x u U val} hl hB hx hu hv => (Outcome.ofRun ⟨none, st, rfl, by simp [OptW], Still.refl⟩).congr (by simp [Net.ThroughW])
  jmpI := fun {st B X x r A Z val} hl hB hx hA hv => by
    have := MaxPool2d.jmp_out (id := id) (st := st) g.fits.toPoolSizes g.hc hB hx hA (val := val) fun v h => hv v h
    simp only [Net.Through, Net.mod, Net.Jb, Net.sem, MaxPool2d.sem_J]
    exact this
  jmpW := fun {st B X x r A Z val} hl hB hx hu hv => (Outcome.ofRun ⟨none, st, rfl, by simp [OptW], Still.refl⟩).congr (by simp [Net.ThroughW])

theorem Net.fm_seq {s s' : List Nat} {n k p l : Nat} (id : Nat) (c : Chain s n s' k p (l + 1)) (hc : c.FM) : (Net.seq id c).FM := by
  have lo : ∀ {st}, (Net.seq id c).Loose st → c.Loose st := fun h => ⟨by have := h.shapes; simpa only [Net.Shapes] using this, h.hooks⟩
  refine ⟨?_, ?_, ?_, ?_⟩
  · intro st B X x u U val hl hB hx hu hv
    simpa only [Net.Through, Net.mod, Net.Jb, Net.sem, Net.w, Chain.Jb] using c.seq_jvpI hc (lo hl) hB hx hu id val
  · intro st B X x u U val hl hB hx hu hv
    simpa only [Net.ThroughW, Net.mod, Net.JWb, Net.sem, Net.w, Chain.JWb] using c.seq_jvpW hc (lo hl) hB hx hu id val
  · intro st B X x r A Z val hl hB hx hu hv
    simpa only [Net.Through, Net.mod, Net.Jb, Net.sem, Net.w, Chain.Jb] using c.seq_jmpI hc (lo hl) hB hx hu id val
  · intro st B X x r A Z val hl hB hx hu hv
    simpa only [Net.ThroughW, Net.mod, Net.JWb, Net.sem, Net.w, Chain.JWb] using c.seq_jmpW hc (lo hl) hB hx hu id val

namespace Outcome
variable {β γ : Type} {ok : Prop} {st : Store ℝ} {b l0 : Nat}
/-- what a SkipConnection does before it calls its inner network -/
theorem skip {xb xl : Res Nat} (h1 : xb = .ok b) (h2 : xl = .ok l0) {val : Option (Tensor ℝ)} {B d : Nat} {r : List Nat}
    (hv : ∀ v ∈ val, v.shape = B :: d :: r) {call : Option (Tensor ℝ) → Prog ℝ β} {body : Nat → Nat → β → Prog ℝ γ} {Q}
    (h : ∀ tv, Outcome ok (call tv >>= body b l0) st Q) :
    Outcome ok (do
      let b ← (liftM xb : Prog ℝ Nat)
      let l ← (liftM xl : Prog ℝ Nat)
      let tv ← (liftM (SkipConnection.tailVal val l) : Prog ℝ _)
      let o ← call tv
      body b l o) st Q := by
  subst h1; subst h2
  cases val with
  | none => exact h none
  | some v =>
    obtain ⟨t, ht⟩ := tail_some l0 (hv v rfl)
    have e : ∀ f : Option (Tensor ℝ) → Prog ℝ γ, ((liftM (SkipConnection.tailVal (some v) l0) : Prog ℝ _) >>= f) = f (some t) := fun f => by rw [ht]; rfl
    exact Eq.mpr (congrArg (fun p => Outcome ok p st Q) (e _)) (h _)
end Outcome

theorem Net.fm_skip {a c : Nat} {r : List Nat} {n k p l : Nat} (id fid : Nat) (ch : Chain (a :: r) n (c :: r) k p (l + 1)) (hc : ch.FM) : (Net.skip id fid ch).FM := by
  have lo : ∀ {st}, (Net.skip id fid ch).Loose st → ch.Loose st := fun h => ⟨by have := h.shapes; simpa only [Net.Shapes] using this, h.hooks⟩
  have hn := ch.lgood.1
  refine ⟨?_, ?_, ?_, ?_⟩
  · intro st B X x u U val hl hB hx hu hv
    refine Outcome.skip hx.dim0 (hx.numel0 hB hn) (fun v h => (hv v h).1.1) fun tv => ?_
    refine ((ch.seq_jvpI hc (lo hl) hB hx hu fid tv).bind (ok' := True) fun o s' ⟨ho, hs⟩ => Outcome.ofRun ?_).congr (by simp [Net.Through])
    exact Skip.need ho fun t ht => Run.bindLift (cat2_vec hu ht) fun y hy => Run.pure ⟨hy.congr fun b i => by
      simp only [Net.Jb, Net.sem, Net.w]
      show _ = (vcat 1 (ch.Jb st X b) *ᵥ U b) i
      rw [vcat_mulVec, one_mulVec], hs⟩
  · intro st B X x u U val hl hB hx hu hv
    have hz : IsBatch (zerosLike x) B (a :: r) n fun _ _ => 0 := ⟨hx.1, fun _ _ => rfl⟩
    refine Outcome.skip hx.dim0 (hx.numel0 hB hn) (fun v h => (hv v h).1) fun tv => ?_
    refine ((ch.seq_jvpW hc (lo hl) hB hx hu fid tv).bind (ok' := 0 < p) fun o s' ⟨ho, hs⟩ => ?_).congr (by simp [Net.ThroughW, and_comm])
    refine Outcome.bindRet (reshape_flat hz hn) fun z hz => ?_
    by_cases hp : 0 < p
    · refine (Outcome.ofRun ?_).congr (by simp [hp])
      refine Skip.need (Skip.optW_some hp ho) fun t ht => Run.bindLift (cat2_vec hz ht) fun y hy => Run.pure ⟨?_, hs⟩
      simp only [OptW, Nat.ne_of_gt hp, if_false]
      refine hy.congr fun b i => ?_
      simp only [Net.JWb, Net.sem, Net.w]
      show _ = (vcat 0 (ch.JWb st X b) *ᵥ U b) i
      rw [vcat_mulVec, zero_mulVec]; rfl
    · refine (Outcome.ofNo ?_).congr (by simp [hp])
      have : o = none := by simpa [OptW, Nat.eq_zero_of_not_pos hp] using ho
      subst this
      exact ⟨_, _, rfl⟩
  · intro st B X x q A Z val hl hB hx hA hv
    refine Outcome.skip hx.dim0 (hx.numel0 hB hn) (fun v h => (hv v h).1.1) fun tv => ?_
    refine ((ch.seq_jmpI hc (lo hl) hB hx hA fid tv).bind (ok' := True) fun o s' ⟨ho, hs⟩ => Outcome.ofRun ?_).congr (by simp [Net.Through])
    exact Skip.need ho fun t ht => Run.bindLift (cat2_rows hA ht) fun y hy => Run.pure ⟨hy.congr fun b i j => by
      simp only [Net.Jb, Net.sem, Net.w]
      show _ = (vcat 1 (ch.Jb st X b) * Z b) i j
      rw [vcat_mul, Matrix.one_mul], hs⟩
  · intro st B X x q A Z val hl hB hx hA hv
    refine Outcome.skip hx.dim0 (hx.numel0 hB hn) (fun v h => (hv v h).1) fun tv => ?_
    refine ((ch.seq_jmpW hc (lo hl) hB hx hA fid tv).bind (ok' := 0 < p) fun o s' ⟨ho, hs⟩ => ?_).congr (by simp [Net.ThroughW, and_comm])
    refine Outcome.bindRet (P := fun d => d = q) ⟨_, hA.dim2, rfl⟩ ?_
    rintro _ rfl
    by_cases hp : 0 < p
    · refine (Outcome.ofRun ?_).congr (by simp [hp])
      refine Skip.need (Skip.optW_some hp ho) fun t ht => Run.bindLift (cat2_rows zeros_mat ht) fun y hy => Run.pure ⟨?_, hs⟩
      simp only [OptW, Nat.ne_of_gt hp, if_false]
      refine hy.congr fun b i j => ?_
      simp only [Net.JWb, Net.sem, Net.w]
      show _ = (vcat 0 (ch.JWb st X b) * Z b) i j
      rw [vcat_mul, Matrix.zero_mul]
    · refine (Outcome.ofNo ?_).congr (by simp [hp])
      have : o = none := by simpa [OptW, Nat.eq_zero_of_not_pos hp] using ho
      subst this
      exact ⟨_, _, rfl⟩

mutual
/-- every network -/
theorem Net.fm : {s s' : List Nat} → {n k p : Nat} → (N : Net s n s' k p) → N.FM
  | _, _, _, _, _, .linear .. => Net.fm_leaf (by simp [Net.FwdI]) (by simp [Net.FwdW]) (by simp [Net.Through]) (by simp [Net.ThroughW])
  | _, _, _, _, _, .act .. => Net.fm_leaf (by simp [Net.FwdI]) (by simp [Net.FwdW]) (by simp [Net.Through]) (by simp [Net.ThroughW])
  | _, _, _, _, _, .flatten .. => Net.fm_leaf (by simp [Net.FwdI]) (by simp [Net.FwdW]) (by simp [Net.Through]) (by simp [Net.ThroughW])
  | _, _, _, _, _, .reshape .. => Net.fm_leaf (by simp [Net.FwdI]) (by simp [Net.FwdW]) (by simp [Net.Through]) (by simp [Net.ThroughW])
  | _, _, _, _, _, .l2norm .. => Net.fm_leaf (by simp [Net.FwdI]) (by simp [Net.FwdW]) (by simp [Net.Through]) (by simp [Net.ThroughW])
  | _, _, _, _, _, .conv .. => Net.fm_conv ..
  | _, _, _, _, _, .upsample .. => Net.fm_upsample ..
  | _, _, _, _, _, .maxpool .. => Net.fm_pool ..
  | _, _, _, _, _, .seq id c => Net.fm_seq id c c.fm
  | _, _, _, _, _, .skip id fid ch => Net.fm_skip id fid ch ch.fm
theorem Chain.fm : {s s' : List Nat} → {n k p l : Nat} → (c : Chain s n s' k p l) → c.FM
  | _, _, _, _, _, _, .nil _ _ _ _ => by simp only [Chain.FM]
  | _, _, _, _, _, _, .snoc c m => by simp only [Chain.FM]; exact ⟨c.fm, m.fm⟩
end

mutual
/-- which pooling layers a product passes -/
theorem Net.Through.pools {q : Nat → Prop} : {s s' : List Nat} → {n k p : Nat} → {N : Net s n s' k p} → N.Through q → ∀ m ∈ N.pools, q m
  | _, _, _, _, _, .linear .., _ => by simp [Net.pools]
  | _, _, _, _, _, .act .., _ => by simp [Net.pools]
  | _, _, _, _, _, .flatten .., _ => by simp [Net.pools]
  | _, _, _, _, _, .reshape .., _ => by simp [Net.pools]
  | _, _, _, _, _, .l2norm .., _ => by simp [Net.pools]
  | _, _, _, _, _, .conv .., _ => by simp [Net.pools]
  | _, _, _, _, _, .upsample .., _ => by simp [Net.pools]
  | _, _, _, _, _, .maxpool .., h => by simpa [Net.pools, Net.Through] using h
  | _, _, _, _, _, .seq _ c, h => by simp only [Net.pools]; simp only [Net.Through] at h; exact Chain.Through.pools h
  | _, _, _, _, _, .skip _ _ ch, h => by simp only [Net.pools]; simp only [Net.Through] at h; exact Chain.Through.pools h
theorem Chain.Through.pools {q : Nat → Prop} : {s s' : List Nat} → {n k p l : Nat} → {c : Chain s n s' k p l} → c.Through q → ∀ m ∈ c.pools, q m
  | _, _, _, _, _, _, .nil _ _ _ _, _ => by simp [Chain.pools]
  | _, _, _, _, _, _, .snoc c m, h => by
    simp only [Chain.Through] at h
    intro j hj
    simp only [Chain.pools, List.mem_append] at hj
    exact hj.elim (Chain.Through.pools h.1 j) (Net.Through.pools h.2 j)
end

end NNJ
