import Verif.Proofs.Tame
import Verif.Spec.Grouping

/-! Each call on a network has a result determined by the parameters and the samples. -/

namespace NNJ
open Tensor Matrix

theorem teq_batch {t t' : Tensor ℝ} {B n : Nat} {s : List Nat} {X : Fin B → Fin n → ℝ} (hs : size s = n)
    (h : IsBatch t B s n X) (h' : IsBatch t' B s n X) : TEq t t' := by
  refine ⟨h.1.trans h'.1.symm, fun i hi => ?_⟩
  rw [h.1, size_cons, hs] at hi
  have hn : 0 < n := Nat.pos_of_ne_zero fun h0 => by simp [h0] at hi
  have hd := h.2 ⟨i / n, Nat.div_lt_of_lt_mul (by rw [Nat.mul_comm]; exact hi)⟩ ⟨i % n, Nat.mod_lt _ hn⟩
  have hd' := h'.2 ⟨i / n, Nat.div_lt_of_lt_mul (by rw [Nat.mul_comm]; exact hi)⟩ ⟨i % n, Nat.mod_lt _ hn⟩
  have e : i / n * n + i % n = i := Nat.div_add_mod' i n
  simp only [e] at hd hd'
  rw [hd, hd']

theorem teq_vec {t t' : Tensor ℝ} {B n : Nat} {X : Fin B → Fin n → ℝ} (h : IsVec t B n X) (h' : IsVec t' B n X) : TEq t t' :=
  teq_batch (by simp [size]) (isVec_iff_batch.1 h) (isVec_iff_batch.1 h')

theorem teq_mat {t t' : Tensor ℝ} {B m n : Nat} {M : Fin B → Matrix (Fin m) (Fin n) ℝ} (h : IsMat t B m n M) (h' : IsMat t' B m n M) : TEq t t' := by
  have key : ∀ {t : Tensor ℝ}, IsMat t B m n M → IsBatch t B [m, n] (m * n) fun b i =>
      M b (finProdFinEquiv.symm i).1 (finProdFinEquiv.symm i).2 := by
    intro t h
    refine ⟨h.1, fun b i => ?_⟩
    refine Eq.trans ?_ (h.data b _ _)
    congr 1
    have := congrArg Fin.val (finProdFinEquiv.apply_symm_apply i)
    simp only [finProdFinEquiv_apply_val] at this
    rw [← this]
    simp [Nat.mul_comm, Nat.add_comm]
  exact teq_batch (by simp [size]) (key h) (key h')

theorem teq_metric {td : Bool} {t t' : Tensor ℝ} {B k : Nat} {M : Fin B → Matrix (Fin k) (Fin k) ℝ}
    (h : MetricOut td t B k M) (h' : MetricOut td t' B k M) : TEq t t' := by
  cases td
  · exact teq_mat h h'
  · exact teq_vec h h'

mutual
theorem Net.blocks_det : {s s' : List Nat} → {n k p : Nat} → (N : Net s n s' k p) → {v v' : PyVal ℝ} → {B : Nat} →
    {Z : Fin B → Matrix (Fin p) (Fin p) ℝ} → N.Blocks v B Z → N.Blocks v' B Z → PEq v v'
  | _, _, _, _, _, .linear _ _ _ _ _ _ _, _, _, _, _, h, h' => by
    simp only [Net.Blocks] at h h'
    obtain ⟨t, rfl, h⟩ := h; obtain ⟨t', rfl, h'⟩ := h'
    exact .tensor (teq_mat h h')
  | _, _, _, _, _, .act _ _ _ _ _ _, _, _, _, _, h, h' => by
    simp only [Net.Blocks] at h h'
    obtain ⟨t, rfl, h⟩ := h; obtain ⟨t', rfl, h'⟩ := h'
    exact .tensor (teq_mat h h')
  | _, _, _, _, _, .flatten _ _ _ _ _, _, _, _, _, h, h' => by
    simp only [Net.Blocks] at h h'
    obtain ⟨t, rfl, h⟩ := h; obtain ⟨t', rfl, h'⟩ := h'
    exact .tensor (teq_mat h h')
  | _, _, _, _, _, .reshape _ _ _ _ _ _ _ _ _, _, _, _, _, h, h' => by
    simp only [Net.Blocks] at h h'
    obtain ⟨t, rfl, h⟩ := h; obtain ⟨t', rfl, h'⟩ := h'
    exact .tensor (teq_mat h h')
  | _, _, _, _, _, .l2norm _ _ _ _ _ _ _, _, _, _, _, h, h' => by
    simp only [Net.Blocks] at h h'
    obtain ⟨t, rfl, h⟩ := h; obtain ⟨t', rfl, h'⟩ := h'
    exact .tensor (teq_mat h h')
  | _, _, _, _, _, .conv _ _ _ _, _, _, _, _, h, h' => by
    simp only [Net.Blocks] at h h'
    obtain ⟨t, rfl, h⟩ := h; obtain ⟨t', rfl, h'⟩ := h'
    exact .tensor (teq_mat h h')
  | _, _, _, _, _, .upsample _ _ _ _ _ _ _ _ _, _, _, _, _, h, h' => by
    simp only [Net.Blocks] at h h'
    obtain ⟨t, rfl, h⟩ := h; obtain ⟨t', rfl, h'⟩ := h'
    exact .tensor (teq_mat h h')
  | _, _, _, _, _, .maxpool _ _, _, _, _, _, h, h' => by
    simp only [Net.Blocks] at h h'
    obtain ⟨t, rfl, h⟩ := h; obtain ⟨t', rfl, h'⟩ := h'
    exact .tensor (teq_mat h h')
  | _, _, _, _, _, .seq _ c, _, _, _, _, h, h' => by
    simp only [Net.Blocks] at h h'
    obtain ⟨t, rfl, h⟩ := h; obtain ⟨t', rfl, h'⟩ := h'
    exact .list (Chain.blocks_det c h h')
  | _, _, _, _, _, .skip _ _ c, _, _, _, _, h, h' => by
    simp only [Net.Blocks] at h h'
    obtain ⟨t, rfl, h⟩ := h; obtain ⟨t', rfl, h'⟩ := h'
    exact .list (Chain.blocks_det c h h')
theorem Chain.blocks_det : {s s' : List Nat} → {n k p l : Nat} → (c : Chain s n s' k p l) → {v v' : List (PyVal ℝ)} → {B : Nat} →
    {Z : Fin B → Matrix (Fin p) (Fin p) ℝ} → c.Blocks v B Z → c.Blocks v' B Z → List.Forall₂ PEq v v'
  | _, _, _, _, _, _, .nil _ _ _ _, _, _, _, _, h, h' => by
    simp only [Chain.Blocks] at h h'
    subst h h'
    exact .nil
  | _, _, _, _, _, _, @Chain.snoc _ _ _ _ _ _ _ q _ c m, _, _, _, _, h, h' => by
    simp only [Chain.Blocks] at h h'
    split at h
    · rename_i hq
      rw [if_pos hq] at h'
      exact Chain.blocks_det c h h'
    · rename_i hq
      rw [if_neg hq] at h'
      obtain ⟨vs, v, rfl, h1, h2⟩ := h
      obtain ⟨vs', v', rfl, h1', h2'⟩ := h'
      exact List.rel_append (Chain.blocks_det c h1 h1') (.cons (Net.blocks_det m h2 h2') .nil)
end

/-- at most one result, up to equality of tensors -/
def Det {β : Type} (f : β → PyVal ℝ) (post : β → Prop) : Prop := ∀ r r', post r → post r' → PEq (f r) (f r')

theorem det_some {P : Tensor ℝ → Prop} (h : ∀ t t', P t → P t' → TEq t t') : Det PyVal.ofOption (IsSome P) := by
  rintro (_ | r) (_ | r') h1 h2
  · exact h1.elim
  · exact h1.elim
  · exact h2.elim
  · exact .tensor (h _ _ h1 h2)

theorem det_optW {p : Nat} {P : Tensor ℝ → Prop} (h : ∀ t t', P t → P t' → TEq t t') : Det PyVal.ofOption (OptW p P) := by
  intro r r' h1 h2
  unfold OptW at h1 h2
  split at h1
  · rename_i h0
    rw [if_pos h0] at h2
    subst h1 h2
    exact .none
  · rename_i h0
    rw [if_neg h0] at h2
    exact det_some h r r' h1 h2

theorem det_tensor {P : Tensor ℝ → Prop} (h : ∀ t t', P t → P t' → TEq t t') : Det (fun v => v) (IsTensor P) := by
  intro r r' h1 h2
  obtain ⟨t, rfl, h1⟩ := isTensor_iff.1 h1
  obtain ⟨t', rfl, h2⟩ := isTensor_iff.1 h2
  exact .tensor (h _ _ h1 h2)

theorem det_optV {p : Nat} {P : PyVal ℝ → Prop} (h : Det (fun v => v) P) : Det (fun v => v) (OptV p P) := by
  intro r r' h1 h2
  unfold OptV at h1 h2
  split at h1
  · rename_i h0
    rw [if_pos h0] at h2
    subst h1 h2
    exact .none
  · rename_i h0
    rw [if_neg h0] at h2
    exact h r r' h1 h2

section
variable {sI sO : List Nat} {n k p : Nat} {M : Mdl sI n sO k p} {β : Type} {st : Store ℝ} {B : Nat} {X : Fin B → Fin n → ℝ}

/-- result in `P`; valid caches stay valid; `tv`: also when `val` is given -/
def CSpec (M : Mdl sI n sO k p) (st : Store ℝ) (X : Fin B → Fin n → ℝ) (tv : Prop) (call : Option (Tensor ℝ) → Prog ℝ (PyVal ℝ)) (P : PyVal ℝ → Prop) : Prop :=
  (Run (call none) st fun r s' => P r ∧ Step M.ids st s' ∧ (M.cache B X st → M.cache B X s')) ∧
  (tv → ∀ v, M.VOk st X v → M.cache B X st → Run (call (some v)) st fun r s' => P r ∧ Step M.ids st s' ∧ M.cache B X s')

theorem CSpec.of_backS {call : Option (Tensor ℝ) → Prog ℝ β} {post : β → Prop} (f : β → PyVal ℝ) {tv : Prop} (h : M.BackS st X call post) :
    CSpec M st X tv (fun val => do let r ← call val; pure (f r)) fun r => ∃ a, post a ∧ f a = r := by
  refine ⟨h.2.bind fun b _ hb => Run.pure ⟨⟨b, hb.1, rfl⟩, hb.2.1, fun _ => hb.2.2⟩, fun _ v hv hc => ?_⟩
  exact (h.1 v hv hc).bind fun b _ hb => Run.pure ⟨⟨b, hb.1, rfl⟩, hb.2.1, hb.2.2⟩

theorem Mdl.Back.toS {call : Option (Tensor ℝ) → Prog ℝ β} {post : β → Prop} (h : M.Back st X call post) : M.BackS st X call post :=
  ⟨fun v hv hc => (h.1 v hv hc).mono fun b _ hb => ⟨hb.1, by rw [hb.2]; exact .refl, by rw [hb.2]; exact hc⟩, h.2⟩

theorem CSpec.of_backW {call : Option (Tensor ℝ) → Prog ℝ β} {post : β → Prop} (f : β → PyVal ℝ) {tv : Prop} (h : M.BackW st X call post) :
    CSpec M st X tv (fun val => do let r ← call val; pure (f r)) fun r => ∃ a, post a ∧ f a = r := by
  refine ⟨h.2.bind fun b _ hb => Run.pure ⟨⟨b, hb.1, rfl⟩, hb.2.1, hb.2.2⟩, fun _ v hv hc => ?_⟩
  exact (h.1 v hv hc).bind fun b _ hb => Run.pure ⟨⟨b, hb.1, rfl⟩, by rw [hb.2]; exact .refl, by rw [hb.2]; exact hc⟩

theorem CSpec.of_fwd {call : Option (Tensor ℝ) → Prog ℝ β} {post : β → Prop} (f : β → PyVal ℝ) {tv : Prop} (h : M.Fwd st X call post) :
    CSpec M st X tv (fun val => do let r ← call val; pure (f r)) fun r => ∃ a, post a ∧ f a = r := by
  refine ⟨(h none (by simp)).bind fun b _ hb => Run.pure ⟨⟨b, hb.1, rfl⟩, hb.2.1, hb.2.2⟩, fun _ v hv hc => ?_⟩
  exact (h (some v) (by simpa using hv)).bind fun b _ hb => Run.pure ⟨⟨b, hb.1, rfl⟩, hb.2.1, hb.2.2 hc⟩

theorem CSpec.of_plain {call : Prog ℝ β} {post : β → Prop} (f : β → PyVal ℝ) {tv : Prop} (htv : ¬ tv)
    {call' : Option (Tensor ℝ) → Prog ℝ (PyVal ℝ)} (hc : call' none = do let r ← call; pure (f r))
    (h : Run call st fun r s' => post r ∧ Step M.ids st s' ∧ (M.cache B X st → M.cache B X s')) :
    CSpec M st X tv call' fun r => ∃ a, post a ∧ f a = r := by
  refine ⟨?_, fun h => (htv h).elim⟩
  rw [hc]
  exact h.bind fun b _ hb => Run.pure ⟨⟨b, hb.1, rfl⟩, hb.2.1, hb.2.2⟩

theorem CSpec.of_forward {call : Prog ℝ β} {post : β → Prop} (f : β → PyVal ℝ) {tv : Prop}
    (h : Run call st fun r s' => post r ∧ Step M.ids st s' ∧ M.cache B X s') :
    CSpec M st X tv (fun _ => do let r ← call; pure (f r)) fun r => ∃ a, post a ∧ f a = r :=
  ⟨h.bind fun b _ hb => Run.pure ⟨⟨b, hb.1, rfl⟩, hb.2.1, fun _ => hb.2.2⟩, fun _ _ _ _ =>
    h.bind fun b _ hb => Run.pure ⟨⟨b, hb.1, rfl⟩, hb.2.1, hb.2.2⟩⟩

theorem CSpec.congr {tv : Prop} {call call' : Option (Tensor ℝ) → Prog ℝ (PyVal ℝ)} {P : PyVal ℝ → Prop} (h : CSpec M st X tv call P)
    (e : ∀ val, call' val = call val) : CSpec M st X tv call' P := by
  have : call' = call := funext e
  rw [this]; exact h

end

theorem det_image {β : Type} {f : β → PyVal ℝ} {post : β → Prop} (h : Det f post) : ∀ r r', (∃ a, post a ∧ f a = r) → (∃ a, post a ∧ f a = r') → PEq r r' := by
  rintro _ _ ⟨a, ha, rfl⟩ ⟨b, hb, rfl⟩
  exact h a b ha hb

/-- the vectors / matrices held by a tensor -/
def vecOf (t : Tensor ℝ) (B n : Nat) (b : Fin B) (i : Fin n) : ℝ := t.get [b, i]
def matOf (t : Tensor ℝ) (B m n : Nat) (b : Fin B) : Matrix (Fin m) (Fin n) ℝ := fun i j => t.get [b, i, j]
theorem isVec_vecOf {t : Tensor ℝ} {B n : Nat} (h : t.shape = [B, n]) : IsVec t B n (vecOf t B n) := ⟨h, fun _ _ => rfl⟩
theorem isMat_matOf {t : Tensor ℝ} {B m n : Nat} (h : t.shape = [B, m, n]) : IsMat t B m n (matOf t B m n) := ⟨h, fun _ _ _ => rfl⟩
/-- the metric held by a tensor -/
noncomputable def metricOf (fd : Bool) (t : Tensor ℝ) (B k : Nat) (b : Fin B) : Matrix (Fin k) (Fin k) ℝ :=
  if fd then diagonal (vecOf t B k b) else matOf t B k k b
theorem isMetric_metricOf {fd : Bool} {t : Tensor ℝ} {B k : Nat} (h : t.shape = if fd then [B, k] else [B, k, k]) :
    MetricArg fd t B k (metricOf fd t B k) := by
  cases fd
  · exact isMat_matOf h
  · exact ⟨_, isVec_vecOf h, fun _ => rfl⟩

theorem bind_pure_id {β : Type} (p : Prog ℝ β) : (p >>= fun r => pure r) = p := by
  funext s
  rw [Prog.bind_run]
  rcases hp : p s with ⟨r, s'⟩
  cases r <;> rfl

section
variable {s s' : List Nat} {n k p : Nat} (N : Net s n s' k p)

/-- `N'` computes the same and supports the same products as `N` (`full`: also the nesting of the lists
returned for full weight-space metrics is the same) -/
structure Net.Sim (N' N : Net s n s' k p) (full : Prop) : Prop where
  sem : N'.sem = N.sem
  fwdI : N.FwdI → N'.FwdI
  fwdW : N.FwdW → N'.FwdW
  blocks : full → N'.Blocks = N.Blocks

variable {N} in
theorem Net.Sim.J {N' : Net s n s' k p} {full : Prop} (h : N'.Sim N full) {st : Store ℝ} : N'.J st = N.sem.J (N'.w st) := by
  rw [← h.sem]; rfl
variable {N} in
theorem Net.Sim.JW {N' : Net s n s' k p} {full : Prop} (h : N'.Sim N full) {st : Store ℝ} : N'.JW st = N.sem.JW (N'.w st) := by
  rw [← h.sem]; rfl
variable {N} in
theorem Net.Sim.Q {N' : Net s n s' k p} {full : Prop} (h : N'.Sim N full) {st : Store ℝ} : N'.Q st = N.sem.Q (N'.w st) := by
  rw [← h.sem]; rfl
variable {N} in
theorem Net.Sim.QW {N' : Net s n s' k p} {full : Prop} (h : N'.Sim N full) {st : Store ℝ} : N'.QW st = N.sem.QW (N'.w st) := by
  rw [← h.sem]; rfl

theorem Net.call_sim (hnd : N.ids.Nodup) {B : Nat} (hB : 0 < B) (c : Call) (hc : c.Valid N B) (w : Fin p → ℝ) (X : Fin B → Fin n → ℝ) :
    ∃ P : PyVal ℝ → Prop, (∀ r r', P r → P r' → PEq r r') ∧ ∀ N' : Net s n s' k p, N'.Sim N c.FullWeight →
      ∀ st x, N'.Ok st → N'.w st = w → IsBatch x B s n X → CSpec N'.mdl st X c.NotJacobian (c.run N'.mod x) P := by
  cases c with
  | forward =>
    refine ⟨fun r => ∃ a, IsBatch a B s' k (fun b => N.sem.f w (X b)) ∧ PyVal.tensor a = r, ?_, fun N' hS st x hok hw hx => ?_⟩
    · exact det_image fun r r' h h' => .tensor (teq_batch (N.good hnd).hk h h')
    · subst hw
      have := hok.g.forward hok.w hB hx
      rw [Net.mdl_m, Net.mdl_Y, hS.sem] at this
      exact CSpec.of_forward _ this
  | jacobian wrt =>
    cases wrt with
    | input =>
      refine ⟨_, det_image (det_some fun t t' => @teq_mat t t' B k n fun b => N.sem.J w (X b)), fun N' hS st x hok hw hx => ?_⟩
      subst hw
      have := hok.g.jacI hok.w hB hx
      rw [Net.mdl_m, Net.mdl_J, hS.J] at this
      exact CSpec.of_plain _ (by simp [Call.NotJacobian]) rfl (this.mono fun _ _ h => ⟨h.1, h.2.1, fun _ => h.2.2⟩)
    | weight =>
      refine ⟨_, det_image (det_optW (p := p) fun t t' => @teq_mat t t' B k p fun b => N.sem.JW w (X b)), fun N' hS st x hok hw hx => ?_⟩
      subst hw
      have := hok.g.jacW hok.w hB hx (hc.imp (fun h => h) fun h => N'.mdl_fwdW.2 (hS.fwdW h))
      rw [Net.mdl_m, Net.mdl_JW, hS.JW] at this
      exact CSpec.of_plain _ (by simp [Call.NotJacobian]) rfl this
    | other => exact hc.elim
  | vjp v wrt =>
    cases wrt with
    | input =>
      refine ⟨_, det_image (det_some fun t t' => @teq_vec t t' B n fun b => vecOf v B k b ᵥ* N.sem.J w (X b)), fun N' hS st x hok hw hx => ?_⟩
      subst hw
      have := hok.g.vjpI hok.w hB hx (isVec_vecOf hc)
      rw [Net.mdl_m, Net.mdl_J, hS.J] at this
      exact CSpec.of_backS _ this.toS
    | weight =>
      refine ⟨_, det_image (det_optW (p := p) fun t t' => @teq_vec t t' B p fun b => vecOf v B k b ᵥ* N.sem.JW w (X b)), fun N' hS st x hok hw hx => ?_⟩
      subst hw
      have := hok.g.vjpW hok.w hB hx (isVec_vecOf hc)
      rw [Net.mdl_m, Net.mdl_JW, hS.JW] at this
      exact CSpec.of_backW _ this
    | other => exact hc.elim
  | mjp M wrt =>
    cases M with
    | none => cases wrt <;> exact hc.elim
    | some M =>
    cases wrt with
    | input =>
      obtain ⟨r, hr, hc⟩ := hc
      refine ⟨_, det_image (det_some fun t t' => @teq_mat t t' B r n fun b => matOf M B r k b * N.sem.J w (X b)), fun N' hS st x hok hw hx => ?_⟩
      subst hw
      have := hok.g.mjpI hok.w hB hx hr (isMat_matOf hc)
      rw [Net.mdl_m, Net.mdl_J, hS.J] at this
      exact CSpec.of_backS _ this.toS
    | weight =>
      obtain ⟨r, hr, hc⟩ := hc
      refine ⟨_, det_image (det_optW (p := p) fun t t' => @teq_mat t t' B r p fun b => matOf M B r k b * N.sem.JW w (X b)), fun N' hS st x hok hw hx => ?_⟩
      subst hw
      have := hok.g.mjpW hok.w hB hx hr (isMat_matOf hc)
      rw [Net.mdl_m, Net.mdl_JW, hS.JW] at this
      exact CSpec.of_backW _ this
    | other => exact hc.elim
  | jvp v wrt =>
    cases wrt with
    | input =>
      obtain ⟨hf, hc⟩ := hc
      refine ⟨_, det_image (det_some fun t t' => @teq_vec t t' B k fun b => N.sem.J w (X b) *ᵥ vecOf v B n b), fun N' hS st x hok hw hx => ?_⟩
      subst hw
      have := hok.g.jvpI (N'.mdl_fwdI.2 (hS.fwdI hf)) hok.w hB hx (isVec_vecOf hc)
      rw [Net.mdl_m, Net.mdl_J, hS.J] at this
      exact CSpec.of_fwd _ this
    | weight =>
      obtain ⟨hf, hf', hc⟩ := hc
      refine ⟨_, det_image (det_optW (p := p) fun t t' => @teq_vec t t' B k fun b => N.sem.JW w (X b) *ᵥ vecOf v B p b), fun N' hS st x hok hw hx => ?_⟩
      subst hw
      have := hok.g.jvpW (N'.mdl_fwdI.2 (hS.fwdI hf)) (N'.mdl_fwdW.2 (hS.fwdW hf')) hok.w hB hx (isVec_vecOf hc)
      rw [Net.mdl_m, Net.mdl_JW, hS.JW] at this
      exact CSpec.of_fwd _ this
    | other => exact hc.elim
  | jmp M wrt =>
    cases M with
    | none => cases wrt <;> exact hc.elim
    | some M =>
    cases wrt with
    | input =>
      obtain ⟨hf, r, hc⟩ := hc
      refine ⟨_, det_image (det_some fun t t' => @teq_mat t t' B k r fun b => N.sem.J w (X b) * matOf M B n r b), fun N' hS st x hok hw hx => ?_⟩
      subst hw
      have := hok.g.jmpI (N'.mdl_fwdI.2 (hS.fwdI hf)) hok.w hB hx (isMat_matOf hc)
      rw [Net.mdl_m, Net.mdl_J, hS.J] at this
      exact CSpec.of_fwd _ this
    | weight =>
      obtain ⟨hf, hf', r, hc⟩ := hc
      refine ⟨_, det_image (det_optW (p := p) fun t t' => @teq_mat t t' B k r fun b => N.sem.JW w (X b) * matOf M B p r b), fun N' hS st x hok hw hx => ?_⟩
      subst hw
      have := hok.g.jmpW (N'.mdl_fwdI.2 (hS.fwdI hf)) (N'.mdl_fwdW.2 (hS.fwdW hf')) hok.w hB hx (isMat_matOf hc)
      rw [Net.mdl_m, Net.mdl_JW, hS.JW] at this
      exact CSpec.of_fwd _ this
    | other => exact hc.elim
  | jTmjp M wrt fd td db =>
    cases M with
    | none => cases wrt <;> exact hc.elim
    | some M =>
    cases wrt with
    | input =>
      obtain ⟨hc, hdb⟩ := hc
      cases db with
      | false =>
        refine ⟨_, det_image (det_tensor fun t t' => @teq_metric td t t' B n fun b => (N.sem.J w (X b))ᵀ * metricOf fd M B k b * N.sem.J w (X b)), fun N' hS st x hok hw hx => ?_⟩
        subst hw
        have := hok.g.jTI fd td hok.w hB hx (isMetric_metricOf hc)
        rw [Net.mdl_m, Net.mdl_J, hS.J] at this
        exact (CSpec.of_backS _ this.toS).congr fun val => (bind_pure_id _).symm
      | true =>
        obtain ⟨rfl, rfl⟩ := hdb rfl
        refine ⟨_, det_image (det_tensor fun t t' => @teq_vec t t' B n fun b => vecOf M B k b ᵥ* N.sem.Q w (X b)), fun N' hS st x hok hw hx => ?_⟩
        subst hw
        have := hok.g.jTIdb hok.w hB hx (isVec_vecOf hc)
        rw [Net.mdl_m, Net.mdl_Q, hS.Q] at this
        exact (CSpec.of_backS _ this.toS).congr fun val => (bind_pure_id _).symm
    | weight =>
      obtain ⟨hc, hdb⟩ := hc
      cases db with
      | false =>
        cases td with
        | true =>
          refine ⟨_, det_image (det_optV (p := p) (det_tensor fun t t' => @teq_vec t t' B p fun b => diag ((N.sem.JW w (X b))ᵀ * metricOf fd M B k b * N.sem.JW w (X b)))), fun N' hS st x hok hw hx => ?_⟩
          subst hw
          have := hok.g.jTWd fd hok.w hB hx (isMetric_metricOf hc)
          rw [Net.mdl_m, Net.mdl_JW, hS.JW] at this
          exact (CSpec.of_backS _ this.toS).congr fun val => (bind_pure_id _).symm
        | false =>
          refine ⟨_, det_image (det_optV (p := p) fun v v' => @Net.blocks_det s s' n k p N v v' B fun b => (N.sem.JW w (X b))ᵀ * metricOf fd M B k b * N.sem.JW w (X b)), fun N' hS st x hok hw hx => ?_⟩
          subst hw
          have := hok.g.jTWf fd hok.w hB hx (isMetric_metricOf hc)
          rw [Net.mdl_m, Net.mdl_JW, show N'.mdl.blocks = N'.Blocks from funext fun v => funext fun B => funext fun Z => propext (N'.mdl_blocks v B Z), hS.blocks trivial, hS.JW] at this
          exact (CSpec.of_backS _ this.toS).congr fun val => (bind_pure_id _).symm
      | true =>
        obtain ⟨rfl, rfl⟩ := hdb rfl
        refine ⟨_, det_image (det_optV (p := p) (det_tensor fun t t' => @teq_vec t t' B p fun b => vecOf M B k b ᵥ* N.sem.QW w (X b))), fun N' hS st x hok hw hx => ?_⟩
        subst hw
        have := hok.g.jTWdb hok.w hB hx (isVec_vecOf hc)
        rw [Net.mdl_m, Net.mdl_QW, hS.QW] at this
        exact (CSpec.of_backS _ this.toS).congr fun val => (bind_pure_id _).symm
    | other => exact hc.elim
  | jmjTp M wrt fd td db =>
    cases M with
    | none => cases wrt <;> exact hc.elim
    | list _ => cases wrt <;> exact hc.elim
    | tensor M =>
    cases wrt with
    | input =>
      obtain ⟨hf, hc, hdb⟩ := hc
      cases db with
      | false =>
        refine ⟨_, det_image (det_some fun t t' => @teq_metric td t t' B k fun b => N.sem.J w (X b) * metricOf fd M B n b * (N.sem.J w (X b))ᵀ), fun N' hS st x hok hw hx => ?_⟩
        subst hw
        have := hok.g.jmjI (N'.mdl_fwdI.2 (hS.fwdI hf)) fd td hok.w hB hx (isMetric_metricOf hc)
        rw [Net.mdl_m, Net.mdl_J, hS.J] at this
        exact CSpec.of_backS _ this
      | true =>
        obtain ⟨rfl, rfl⟩ := hdb rfl
        refine ⟨_, det_image (det_some fun t t' => @teq_vec t t' B k fun b => N.sem.Q w (X b) *ᵥ vecOf M B n b), fun N' hS st x hok hw hx => ?_⟩
        subst hw
        have := hok.g.jmjIdb (N'.mdl_fwdI.2 (hS.fwdI hf)) hok.w hB hx (isVec_vecOf hc)
        rw [Net.mdl_m, Net.mdl_Q, hS.Q] at this
        exact CSpec.of_backS _ this
    | weight =>
      obtain ⟨hf, hp, hc, hdb⟩ := hc
      cases db with
      | false =>
        refine ⟨_, det_image (det_some fun t t' => @teq_metric td t t' B k fun b => N.sem.JW w (X b) * N.sem.mask (metricOf fd M B p b) * (N.sem.JW w (X b))ᵀ), fun N' hS st x hok hw hx => ?_⟩
        subst hw
        have := hok.g.jmjW (N'.mdl_pushW.2 (hS.fwdI hf).pushW) hp fd td hok.w hB hx (hok.g.arg_of_metric (isMetric_metricOf hc))
        rw [Net.mdl_m, Net.mdl_JW, Net.mdl_S, hS.sem, hS.JW] at this
        exact CSpec.of_backS _ this
      | true =>
        obtain ⟨rfl, rfl⟩ := hdb rfl
        refine ⟨_, det_image (det_some fun t t' => @teq_vec t t' B k fun b => N.sem.QW w (X b) *ᵥ vecOf M B p b), fun N' hS st x hok hw hx => ?_⟩
        subst hw
        have := hok.g.jmjWdb (N'.mdl_pushW.2 (hS.fwdI hf).pushW) hp hok.w hB hx (isVec_vecOf hc)
        rw [Net.mdl_m, Net.mdl_QW, hS.QW] at this
        exact CSpec.of_backS _ this
    | other => exact hc.elim

theorem Net.call_spec (hnd : N.ids.Nodup) {B : Nat} (hB : 0 < B) (c : Call) (hc : c.Valid N B) (w : Fin p → ℝ) (X : Fin B → Fin n → ℝ) :
    ∃ P : PyVal ℝ → Prop, (∀ r r', P r → P r' → PEq r r') ∧ ∀ st x, N.Ok st → N.w st = w → IsBatch x B s n X →
      CSpec N.mdl st X c.NotJacobian (c.run N.mod x) P := by
  obtain ⟨P, hdet, h⟩ := N.call_sim hnd hB c hc w X
  exact ⟨P, hdet, h N ⟨rfl, fun h => h, fun h => h, fun _ => rfl⟩⟩

end

end NNJ
