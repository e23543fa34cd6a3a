import Verif.Proofs.Tests

/-! The tests of tests/jacobian_products.py pass. -/

namespace NNJ
namespace Tests
open Tensor Matrix

/-! ### the slow side -/

section
variable {B m n : Nat} {A C v : Tensor ℝ} {J : Fin B → Matrix (Fin m) (Fin n) ℝ}

/-- `J M Jᵀ` by `einsum` -/
theorem slow_jmj (fd td : Bool) {M : Fin B → Matrix (Fin n) (Fin n) ℝ} (hA : IsMat A B m n J) (hC : MetricArg fd C B n M) :
    Ret (match fd, td with
      | false, false => einsum% "bij, bjk, bqk -> biq" [A, C, A]
      | false, true => einsum% "bij, bjk, bik -> bi" [A, C, A]
      | true, false => einsum% "bij, bj, bqj -> biq" [A, C, A]
      | true, true => einsum% "bij, bj, bij -> bi" [A, C, A]) fun r => MetricOut td r B m fun b => J b * M b * (J b)ᵀ := by
  rcases fd with _ | _ <;> rcases td with _ | _ <;> simp only [MetricArg, MetricOut, if_true, Bool.false_eq_true, if_false] at hC ⊢
  · ein [('b', B), ('i', m), ('j', n), ('k', n), ('q', m)] [hA.1, hA.2, hC.1, hC.2]
    sums
  · exact ein_bij_bjk_bik hA hC
  · obtain ⟨d, hd, hM⟩ := hC
    simp only [hM]
    ein [('b', B), ('i', m), ('j', n), ('q', m)] [hA.1, hA.2, hd.1, hd.2]
    sums
  · obtain ⟨d, hd, hM⟩ := hC
    simp only [hM]
    exact ein_bij_bj_bij hA hd

/-- `Jᵀ M J` by `einsum` -/
theorem slow_jTm (fd td : Bool) {M : Fin B → Matrix (Fin m) (Fin m) ℝ} (hA : IsMat A B m n J) (hC : MetricArg fd C B m M) :
    Ret (match fd, td with
      | false, false => einsum% "bji, bjk, bkq -> biq" [A, C, A]
      | false, true => einsum% "bji, bjk, bki -> bi" [A, C, A]
      | true, false => einsum% "bji, bj, bjk -> bik" [A, C, A]
      | true, true => einsum% "bji, bj, bji -> bi" [A, C, A]) fun r => MetricOut td r B n fun b => (J b)ᵀ * M b * J b := by
  rcases fd with _ | _ <;> rcases td with _ | _ <;> simp only [MetricArg, MetricOut, if_true, Bool.false_eq_true, if_false] at hC ⊢
  · ein [('b', B), ('i', n), ('j', m), ('k', m), ('q', n)] [hA.1, hA.2, hC.1, hC.2]
    sums
  · ein [('b', B), ('i', n), ('j', m), ('k', m)] [hA.1, hA.2, hC.1, hC.2]
    sums
  · obtain ⟨d, hd, hM⟩ := hC
    simp only [hM]
    ein [('b', B), ('i', n), ('j', m), ('k', n)] [hA.1, hA.2, hd.1, hd.2]
    sums
  · obtain ⟨d, hd, hM⟩ := hC
    simp only [hM]
    ein [('b', B), ('i', n), ('j', m)] [hA.1, hA.2, hd.1, hd.2]
    sums
end

/-! ### the calls, in a state reached from `st0` -/

/-- `st` was reached from `st0` by calls of methods -/
structure Sit {s s' : List Nat} {n k p : Nat} (N : Net s n s' k p) (st0 st : Store ℝ) : Prop where
  ok : N.Ok st
  step : Step N.mdl.ids st0 st
  w : N.w st = N.w st0

section
variable {s s' : List Nat} {n k p : Nat} {N : Net s n s' k p} {st0 st : Store ℝ}

theorem Sit.refl (h : N.Ok st0) : Sit N st0 st0 := ⟨h, .refl, rfl⟩
theorem Sit.next (S : Sit N st0 st) {st' : Store ℝ} (h : Step N.mdl.ids st st') : Sit N st0 st' :=
  ⟨S.ok.of_wiring h.wiring, S.step.trans h, by rw [← S.w, ← N.mdl_w]; exact S.ok.g.w_of h.param⟩

theorem Sit.J (S : Sit N st0 st) : N.J st = N.J st0 := by funext x; simp only [Net.J, S.w]
theorem Sit.JW (S : Sit N st0 st) : N.JW st = N.JW st0 := by funext x; simp only [Net.JW, S.w]

theorem Sit.run (S : Sit N st0 st) {β : Type} {call : Prog ℝ β} {P : β → Prop} {R : Store ℝ → Prop}
    (h : Run call st fun r s' => P r ∧ Step N.mdl.ids st s' ∧ R s') : Run call st fun r s' => P r ∧ Sit N st0 s' :=
  h.mono fun _ _ ⟨h1, h2, _⟩ => ⟨h1, S.next h2⟩

variable {B : Nat} {X : Fin B → Fin n → ℝ} {x : Tensor ℝ} (S : Sit N st0 st) (hB : 0 < B) (hx : IsBatch x B s n X)
include S hB hx

theorem Sit.forward : Run (N.mod.forward x) st fun r st' => IsBatch r B s' k (fun b => N.sem.f (N.w st0) (X b)) ∧ Sit N st0 st' := by
  have := S.run (S.ok.g.forward S.ok.w hB hx)
  rw [Net.mdl_m, Net.mdl_Y, S.w] at this
  exact this

omit S in
theorem call_of_forward {P : Tensor ℝ → Store ℝ → Prop} (htop : st0.hooks N.mod.id = []) (h : Run (N.mod.forward x) st fun r st' => P r st' ∧ Sit N st0 st') :
    Run (N.mod.call x) st fun r st' => P r st' ∧ Sit N st0 st' := by
  obtain ⟨v, s1, e, hP, S1⟩ := h
  refine ⟨v, s1, ?_, hP, S1⟩
  simp only [Mod.call]
  rw [Prog.bind_ok e, Prog.bind_read_run, S1.step.hooks, htop]
  rfl

theorem Sit.call (htop : st0.hooks N.mod.id = []) : Run (N.mod.call x) st fun r st' => IsBatch r B s' k (fun b => N.sem.f (N.w st0) (X b)) ∧ Sit N st0 st' :=
  call_of_forward (P := fun r _ => IsBatch r B s' k (fun b => N.sem.f (N.w st0) (X b))) hB hx htop (S.forward hB hx)
theorem Sit.jacI  : Run (N.mod.jacobian x none .input) st fun r s' => IsSome (fun t => IsMat t B k n fun b => N.J st0 (X b)) r ∧ Sit N st0 s' := by
  have := S.run (S.ok.g.jacI S.ok.w hB hx)
  rw [Net.mdl_m, Net.mdl_J, S.J] at this
  exact this
theorem Sit.jacW (hp : 0 < p) : Run (N.mod.jacobian x none .weight) st fun r s' => OptW p (fun t => IsMat t B k p fun b => N.JW st0 (X b)) r ∧ Sit N st0 s' := by
  have := S.run (S.ok.g.jacW S.ok.w hB hx (.inl hp))
  rw [Net.mdl_m, Net.mdl_JW, S.JW] at this
  exact this
theorem Sit.vjpI {u : Tensor ℝ} {U} (hu : IsVec u B k U) : Run (N.mod.vjp x none u .input) st fun r s' => IsSome (fun t => IsVec t B n fun b => U b ᵥ* N.J st0 (X b)) r ∧ Sit N st0 s' := by
  have := S.run ((S.ok.g.vjpI S.ok.w hB hx hu).2)
  rw [Net.mdl_m, Net.mdl_J, S.J] at this
  exact this
theorem Sit.vjpW {u : Tensor ℝ} {U} (hu : IsVec u B k U) : Run (N.mod.vjp x none u .weight) st fun r s' => OptW p (fun t => IsVec t B p fun b => U b ᵥ* N.JW st0 (X b)) r ∧ Sit N st0 s' := by
  have := S.run ((S.ok.g.vjpW S.ok.w hB hx hu).2)
  rw [Net.mdl_m, Net.mdl_JW, S.JW] at this
  exact this
theorem Sit.mjpI {r : Nat} (hr : 0 < r) {A : Tensor ℝ} {Z} (hA : IsMat A B r k Z) : Run (N.mod.mjp x none (some A) .input) st fun r s' => IsSome (fun t => IsMat t B _ n fun b => Z b * N.J st0 (X b)) r ∧ Sit N st0 s' := by
  have := S.run ((S.ok.g.mjpI S.ok.w hB hx hr hA).2)
  rw [Net.mdl_m, Net.mdl_J, S.J] at this
  exact this
theorem Sit.mjpW {r : Nat} (hr : 0 < r) {A : Tensor ℝ} {Z} (hA : IsMat A B r k Z) : Run (N.mod.mjp x none (some A) .weight) st fun r s' => OptW p (fun t => IsMat t B _ p fun b => Z b * N.JW st0 (X b)) r ∧ Sit N st0 s' := by
  have := S.run ((S.ok.g.mjpW S.ok.w hB hx hr hA).2)
  rw [Net.mdl_m, Net.mdl_JW, S.JW] at this
  exact this
theorem Sit.jTI {A : Tensor ℝ} {Z} (fd td : Bool) (hA : MetricArg fd A B k Z) : Run (N.mod.jTmjp x none (some A) .input fd td false) st fun r s' => IsTensor (fun t => MetricOut td t B n fun b => (N.J st0 (X b))ᵀ * Z b * N.J st0 (X b)) r ∧ Sit N st0 s' := by
  have := S.run ((S.ok.g.jTI fd td S.ok.w hB hx hA).2)
  rw [Net.mdl_m, Net.mdl_J, S.J] at this
  exact this
theorem Sit.jTWd {A : Tensor ℝ} {Z} (fd : Bool) (hA : MetricArg fd A B k Z) : Run (N.mod.jTmjp x none (some A) .weight fd true false) st fun r s' => OptV p (IsTensor (fun t => IsVec t B p fun b => diag ((N.JW st0 (X b))ᵀ * Z b * N.JW st0 (X b)))) r ∧ Sit N st0 s' := by
  have := S.run ((S.ok.g.jTWd fd S.ok.w hB hx hA).2)
  rw [Net.mdl_m, Net.mdl_JW, S.JW] at this
  exact this
theorem Sit.jTWf {A : Tensor ℝ} {Z} (fd : Bool) (hA : MetricArg fd A B k Z) : Run (N.mod.jTmjp x none (some A) .weight fd false false) st fun r s' => OptV p (fun v => N.mdl.blocks v B fun b => (N.JW st0 (X b))ᵀ * Z b * N.JW st0 (X b)) r ∧ Sit N st0 s' := by
  have := S.run ((S.ok.g.jTWf fd S.ok.w hB hx hA).2)
  rw [Net.mdl_m, Net.mdl_JW, S.JW] at this
  exact this
theorem Sit.jvpI (hf : N.FwdI) {u : Tensor ℝ} {U} (hu : IsVec u B n U) : Run (N.mod.jvp x none u .input) st fun r s' => IsSome (fun t => IsVec t B k fun b => N.J st0 (X b) *ᵥ U b) r ∧ Sit N st0 s' := by
  have := S.run (S.ok.g.jvpI (N.mdl_fwdI.2 hf) S.ok.w hB hx hu none (by simp))
  rw [Net.mdl_m, Net.mdl_J, S.J] at this
  exact this
theorem Sit.jvpW (hf : N.FwdI) (hw : N.FwdW) {u : Tensor ℝ} {U} (hu : IsVec u B p U) : Run (N.mod.jvp x none u .weight) st fun r s' => OptW p (fun t => IsVec t B k fun b => N.JW st0 (X b) *ᵥ U b) r ∧ Sit N st0 s' := by
  have := S.run (S.ok.g.jvpW (N.mdl_fwdI.2 hf) (N.mdl_fwdW.2 hw) S.ok.w hB hx hu none (by simp))
  rw [Net.mdl_m, Net.mdl_JW, S.JW] at this
  exact this
theorem Sit.jmpI (hf : N.FwdI) {c : Nat} {A : Tensor ℝ} {Z} (hA : IsMat A B n c Z) : Run (N.mod.jmp x none (some A) .input) st fun r s' => IsSome (fun t => IsMat t B k c fun b => N.J st0 (X b) * Z b) r ∧ Sit N st0 s' := by
  have := S.run (S.ok.g.jmpI (N.mdl_fwdI.2 hf) S.ok.w hB hx hA none (by simp))
  rw [Net.mdl_m, Net.mdl_J, S.J] at this
  exact this
theorem Sit.jmpW (hf : N.FwdI) (hw : N.FwdW) {c : Nat} {A : Tensor ℝ} {Z} (hA : IsMat A B p c Z) : Run (N.mod.jmp x none (some A) .weight) st fun r s' => OptW p (fun t => IsMat t B k c fun b => N.JW st0 (X b) * Z b) r ∧ Sit N st0 s' := by
  have := S.run (S.ok.g.jmpW (N.mdl_fwdI.2 hf) (N.mdl_fwdW.2 hw) S.ok.w hB hx hA none (by simp))
  rw [Net.mdl_m, Net.mdl_JW, S.JW] at this
  exact this
theorem Sit.jmjI (hf : N.FwdI) {A : Tensor ℝ} {Z} (fd td : Bool) (hA : MetricArg fd A B n Z) : Run (N.mod.jmjTp x none (.tensor A) .input fd td false) st fun r s' => IsSome (fun t => MetricOut td t B k fun b => N.J st0 (X b) * Z b * (N.J st0 (X b))ᵀ) r ∧ Sit N st0 s' := by
  have := S.run ((S.ok.g.jmjI (N.mdl_fwdI.2 hf) fd td S.ok.w hB hx hA).2)
  rw [Net.mdl_m, Net.mdl_J, S.J] at this
  exact this
theorem Sit.jmjW (hf : N.PushW) (hp : 0 < p) {v : PyVal ℝ} {Z} (fd td : Bool) (hA : N.mdl.arg fd v B Z) : Run (N.mod.jmjTp x none v .weight fd td false) st fun r s' => IsSome (fun t => MetricOut td t B k fun b => N.JW st0 (X b) * N.sem.mask (Z b) * (N.JW st0 (X b))ᵀ) r ∧ Sit N st0 s' := by
  have := S.run ((S.ok.g.jmjW (N.mdl_pushW.2 hf) hp fd td S.ok.w hB hx hA).2)
  rw [Net.mdl_m, Net.mdl_JW, Net.mdl_S, S.JW] at this
  exact this
end

/-! ### the tests -/

theorem tail_size {t : Tensor ℝ} {B : Nat} {s : List Nat} {n : Nat} {X : Fin B → Fin n → ℝ} (hn : size s = n) (hx : IsBatch t B s n X) :
    size t.shape.tail = n := by
  rw [hx.1]; exact hn

theorem Run.toSome {p : Nat} (hp : 0 < p) {P : Tensor ℝ → Prop} {st : Store ℝ} {call : Prog ℝ (Option (Tensor ℝ))} {R : Store ℝ → Prop}
    (h : Run call st fun r s' => OptW p P r ∧ R s') : Run call st fun r s' => IsSome P r ∧ R s' := by
  refine h.mono fun r s' ⟨h1, h2⟩ => ⟨?_, h2⟩
  rwa [OptW, if_neg (by omega)] at h1

theorem need_then {p : Nat} (hp : 0 < p) {P : Tensor ℝ → Prop} {r : Option (Tensor ℝ)} (h : OptW p P r) {st : Store ℝ} {f : Tensor ℝ → Prog ℝ Unit}
    {Q : Unit → Store ℝ → Prop} (hf : ∀ t, P t → Run (f t) st Q) : Run (do let t ← Prog.need r; f t) st Q := by
  rw [OptW, if_neg (by omega)] at h
  cases r with
  | none => exact h.elim
  | some t => exact hf t h

theorem none_then {p : Nat} (hp : p = 0) {P : Tensor ℝ → Prop} {r : Option (Tensor ℝ)} (h : OptW p P r) {st : Store ℝ} {Q : Unit → Store ℝ → Prop}
    (hQ : Q () st) : Run (checkNone r) st Q := by
  rw [OptW, if_pos hp] at h
  subst h
  exact ⟨(), st, rfl, hQ⟩

section
variable {s s' : List Nat} {n k p : Nat} {N : Net s n s' k p} {st0 : Store ℝ} {B : Nat} {X : Fin B → Fin n → ℝ} {x : Tensor ℝ} {randn : Draws}
  (h : N.Ok st0) (hB : 0 < B) (hx : IsBatch x B s n X) (hr : randn.Shaped) (htop : st0.hooks N.mod.id = [])
include h hB hx hr

theorem run_jvpInput (hf : N.FwdI) : Run (jvpInput N.mod x randn) st0 fun _ s' => Sit N st0 s' := by
  refine Run.bindEq hx.dim0 (Run.bindEq (hx.numel0 hB h.g.hn) ?_)
  have hu : IsVec (randn 0 [B, n]) B n _ := isVec_vecOf (hr _ _)
  refine Run.bindNeed ((Sit.refl h).jacI hB hx) fun j s1 hj S1 => ?_
  refine Run.bindLift (ein_bij_bj hj hu) fun slow hs => ?_
  exact Run.bindNeed (S1.jvpI hB hx hf hu) fun f s2 hf S2 => run_check (teq_vec hf hs) S2

theorem run_jvpWeight (hf : N.FwdI) (hw : N.FwdW) : Run (jvpWeight N.mod x randn) st0 fun _ s' => Sit N st0 s' := by
  refine Run.bindEq hx.dim0 ?_
  rw [N.nParams_eq]
  have hu : IsVec (randn 0 [B, p]) B p _ := isVec_vecOf (hr _ _)
  refine ((Sit.refl h).jvpW hB hx hf hw hu).bind fun f s1 ⟨hf, S1⟩ => ?_
  split
  · next hp => exact none_then hp hf S1
  · next hp =>
    have hp := Nat.pos_of_ne_zero hp
    refine Run.bindNeed (Run.toSome hp (S1.jacW hB hx hp)) fun j s2 hj S2 => ?_
    refine Run.bindLift (ein_bij_bj hj hu) fun slow hs => ?_
    exact need_then hp hf fun f hf => run_check (teq_vec hf hs) S2

include htop in
theorem run_vjpInput : Run (vjpInput N.mod x randn) st0 fun _ s' => Sit N st0 s' := by
  refine ((Sit.refl h).call hB hx htop).bind fun y s1 ⟨hy, S1⟩ => ?_
  refine Run.bindEq hy.dim0 (Run.bindEq (hy.numel0 hB h.g.hk) ?_)
  have hu : IsVec (randn 0 [B, k]) B k _ := isVec_vecOf (hr _ _)
  refine Run.bindNeed (S1.jacI hB hx) fun j s2 hj S2 => ?_
  refine Run.bindLift (ein_bi_bij hu hj) fun slow hs => ?_
  exact Run.bindNeed (S2.vjpI hB hx hu) fun f s3 hf S3 => run_check (teq_vec hf hs) S3

include htop in
theorem run_vjpWeight : Run (vjpWeight N.mod x randn) st0 fun _ s' => Sit N st0 s' := by
  refine ((Sit.refl h).call hB hx htop).bind fun y s1 ⟨hy, S1⟩ => ?_
  refine Run.bindEq hy.dim0 (Run.bindEq (hy.numel0 hB h.g.hk) ?_)
  have hu : IsVec (randn 0 [B, k]) B k _ := isVec_vecOf (hr _ _)
  refine (S1.vjpW hB hx hu).bind fun f s2 ⟨hf, S2⟩ => ?_
  rw [N.nParams_eq]
  split
  · next hp => exact none_then hp hf S2
  · next hp =>
    have hp := Nat.pos_of_ne_zero hp
    refine Run.bindNeed (Run.toSome hp (S2.jacW hB hx hp)) fun j s3 hj S3 => ?_
    refine Run.bindLift (ein_bi_bij hu hj) fun slow hs => ?_
    exact need_then hp hf fun f hf => run_check (teq_vec hf hs) S3

theorem run_jmpInput (hf : N.FwdI) (c : Nat) : Run (jmpInput c N.mod x randn) st0 fun _ s' => Sit N st0 s' := by
  refine Run.bindEq hx.dim0 ?_
  rw [tail_size h.g.hn hx]
  have hu : IsMat (randn 0 [B, n, c]) B n c _ := isMat_matOf (hr _ _)
  refine Run.bindNeed ((Sit.refl h).jacI hB hx) fun j s1 hj S1 => ?_
  refine Run.bindLift (ein_bij_bjk hj hu) fun slow hs => ?_
  exact Run.bindNeed (S1.jmpI hB hx hf hu) fun f s2 hf S2 => run_check (teq_mat hf hs) S2

theorem run_jmpWeight (hf : N.FwdI) (hw : N.FwdW) (c : Nat) : Run (jmpWeight c N.mod x randn) st0 fun _ s' => Sit N st0 s' := by
  refine Run.bindEq hx.dim0 ?_
  rw [N.nParams_eq]
  have hu : IsMat (randn 0 [B, p, c]) B p c _ := isMat_matOf (hr _ _)
  refine ((Sit.refl h).jmpW hB hx hf hw hu).bind fun f s1 ⟨hf, S1⟩ => ?_
  split
  · next hp => exact none_then hp hf S1
  · next hp =>
    have hp := Nat.pos_of_ne_zero hp
    refine Run.bindNeed (Run.toSome hp (S1.jacW hB hx hp)) fun j s2 hj S2 => ?_
    refine Run.bindLift (ein_bij_bjk hj hu) fun slow hs => ?_
    exact need_then hp hf fun f hf => run_check (teq_mat hf hs) S2

include htop in
theorem run_mjpInput {r : Nat} (h0 : 0 < r) : Run (mjpInput r N.mod x randn) st0 fun _ s' => Sit N st0 s' := by
  refine Run.bindEq hx.dim0 ?_
  refine ((Sit.refl h).call hB hx htop).bind fun y s1 ⟨hy, S1⟩ => ?_
  rw [tail_size h.g.hk hy]
  have hu : IsMat (randn 0 [B, r, k]) B r k _ := isMat_matOf (hr _ _)
  refine Run.bindNeed (S1.jacI hB hx) fun j s2 hj S2 => ?_
  refine Run.bindLift (ein_bij_bjk hu hj) fun slow hs => ?_
  exact Run.bindNeed (S2.mjpI hB hx h0 hu) fun f s3 hf S3 => run_check (teq_mat hf hs) S3

include htop in
theorem run_mjpWeight {r : Nat} (h0 : 0 < r) : Run (mjpWeight r N.mod x randn) st0 fun _ s' => Sit N st0 s' := by
  refine Run.bindEq hx.dim0 ?_
  refine ((Sit.refl h).call hB hx htop).bind fun y s1 ⟨hy, S1⟩ => ?_
  rw [tail_size h.g.hk hy]
  have hu : IsMat (randn 0 [B, r, k]) B r k _ := isMat_matOf (hr _ _)
  refine (S1.mjpW hB hx h0 hu).bind fun f s2 ⟨hf, S2⟩ => ?_
  rw [N.nParams_eq]
  split
  · next hp => exact none_then hp hf S2
  · next hp =>
    have hp := Nat.pos_of_ne_zero hp
    refine Run.bindNeed (Run.toSome hp (S2.jacW hB hx hp)) fun j s3 hj S3 => ?_
    refine Run.bindLift (ein_bij_bjk hu hj) fun slow hs => ?_
    exact need_then hp hf fun f hf => run_check (teq_mat hf hs) S3

theorem run_jmjTpInput (hf : N.FwdI) (fd td : Bool) : Run (jmjTpInput fd td N.mod x randn) st0 fun _ s' => Sit N st0 s' := by
  refine Run.bindEq hx.dim0 ?_
  rw [tail_size h.g.hn hx]
  have hu : MetricArg fd (randn 0 (if fd then [B, n] else [B, n, n])) B n _ := isMetric_metricOf (hr _ _)
  refine Run.bindNeed ((Sit.refl h).jacI hB hx) fun j s1 hj S1 => ?_
  refine Run.bindLift (slow_jmj fd td hj hu) fun slow hs => ?_
  exact Run.bindNeed (S1.jmjI hB hx hf fd td hu) fun f s2 hf S2 => run_check (teq_metric hf hs) S2

include htop in
theorem run_jTmjpInput (fd td : Bool) : Run (jTmjpInput fd td N.mod x randn) st0 fun _ s' => Sit N st0 s' := by
  refine ((Sit.refl h).call hB hx htop).bind fun y s1 ⟨hy, S1⟩ => ?_
  refine Run.bindEq hx.dim0 ?_
  rw [tail_size h.g.hk hy]
  have hu : MetricArg fd (if fd then ones [B, k] else randn 0 [B, k, k]) B k _ := isMetric_metricOf (by cases fd; exact hr _ _; rfl)
  refine Run.bindNeed (S1.jacI hB hx) fun j s2 hj S2 => ?_
  refine Run.bindLift (slow_jTm fd td hj hu) fun slow hs => ?_
  refine (S2.jTI hB hx fd td hu).bind fun f s3 ⟨hf, S3⟩ => ?_
  obtain ⟨t, rfl, ht⟩ := isTensor_iff.1 hf
  exact Run.bindEq rfl (run_check (teq_metric ht hs) S3)

include htop in
theorem run_jTmjpWeight (fd td : Bool) : Run (jTmjpWeight fd td N.mod x randn) st0 fun _ s' => Sit N st0 s' := by
  simp only [jTmjpWeight]
  rw [N.nParams_eq]
  split
  · exact Run.pure (.refl h)
  · next hp =>
    have hp := Nat.pos_of_ne_zero hp
    refine ((Sit.refl h).call hB hx htop).bind fun y s1 ⟨hy, S1⟩ => ?_
    refine Run.bindEq hx.dim0 ?_
    rw [tail_size h.g.hk hy]
    have hu : MetricArg fd (randn 0 (if fd then [B, k] else [B, k, k])) B k _ := isMetric_metricOf (hr _ _)
    refine Run.bindNeed (Run.toSome hp (S1.jacW hB hx hp)) fun j s2 hj S2 => ?_
    refine Run.bindLift (slow_jTm fd td hj hu) fun slow hs => ?_
    cases td
    · refine (S2.jTWf hB hx fd hu).bind fun f s3 ⟨hf, S3⟩ => ?_
      rw [OptV, if_neg (by omega), N.mdl_blocks] at hf
      refine Run.bindEq (close_net N hp hf hs).2 ?_
      exact ⟨(), s3, rfl, S3⟩
    · refine (S2.jTWd hB hx fd hu).bind fun f s3 ⟨hf, S3⟩ => ?_
      rw [OptV, if_neg (by omega)] at hf
      obtain ⟨t, rfl, ht⟩ := isTensor_iff.1 hf
      refine Run.bindEq (b := .tensor true) ?_ ⟨(), s3, rfl, S3⟩
      simp only [closeBlocks, isCloseAll_of_teq (teq_vec ht hs)]
      rfl

theorem run_jmjTpWeight (fd td : Bool) (hF : p = 0 ∨ N.PushW ∧ (fd = false → N.NestedFull)) :
    Run (jmjTpWeight fd td N.tree N.mod x randn) st0 fun _ s' => Sit N st0 s' := by
  simp only [jmjTpWeight]
  rw [N.nParams_eq]
  split
  · exact Run.pure (.refl h)
  · next hp =>
    obtain ⟨hf, hnf⟩ := hF.resolve_left hp
    have hp := Nat.pos_of_ne_zero hp
    refine Run.bindEq hx.dim0 ?_
    refine Run.bindNeed (Run.toSome hp ((Sit.refl h).jacW hB hx hp)) fun j s1 hj S1 => ?_
    cases fd
    · obtain ⟨Z, hb, hm, t, ht, hZ⟩ := gen_net hr B N (hnf rfl) hp 0
      refine Run.bindLift (P := fun slow => MetricOut td slow B k fun b => N.JW st0 (X b) * Z b * (N.JW st0 (X b))ᵀ) ?_ fun slow hs => ?_
      · have := slow_jmj false td hj (C := t) (M := Z) hZ
        cases td <;> simp only [Bool.false_eq_true, if_false, ht, Res.bind_ok] at this ⊢ <;> exact this
      · refine Run.bindNeed (S1.jmjW hB hx hf hp false td (S1.ok.g.arg_of_blocks ((N.mdl_blocks _ _ _).2 hb))) fun f s2 hf S2 => ?_
        simp only [hm] at hf
        exact run_check (teq_metric hf hs) S2
    · have hu : MetricArg true (randn 0 [B, p]) B p _ := isMetric_metricOf (hr _ _)
      refine Run.bindLift (P := fun slow => MetricOut td slow B k fun b => N.JW st0 (X b) * metricOf true (randn 0 [B, p]) B p b * (N.JW st0 (X b))ᵀ) ?_ fun slow hs => ?_
      · have := slow_jmj true td hj hu
        cases td <;> exact this
      · refine Run.bindNeed (S1.jmjW hB hx hf hp true td (S1.ok.g.arg_of_metric hu)) fun f s2 hf S2 => ?_
        have hm : ∀ b, N.sem.mask (metricOf true (randn 0 [B, p]) B p b) = metricOf true (randn 0 [B, p]) B p b := fun b => by
          have := h.g.mask_diag (vecOf (randn 0 [B, p]) B p b)
          rw [N.mdl_S] at this
          simpa only [metricOf, if_true] using this
        simp only [hm] at hf
        exact run_check (teq_metric hf hs) S2

include htop in
/-- every test passes -/
theorem run_test (t : Test) (hf : t.For N) : Run (t.run N.tree N.mod x randn) st0 fun _ s' => Sit N st0 s' := by
  cases t with
  | jvpInput => exact run_jvpInput h hB hx hr hf
  | jvpWeight => exact run_jvpWeight h hB hx hr hf.1 hf.2
  | vjpInput => exact run_vjpInput h hB hx hr htop
  | vjpWeight => exact run_vjpWeight h hB hx hr htop
  | jmpInput => exact run_jmpInput h hB hx hr hf 120
  | jmpWeight => exact run_jmpWeight h hB hx hr hf.1 hf.2 120
  | mjpInput => exact run_mjpInput h hB hx hr htop (by omega)
  | mjpWeight => exact run_mjpWeight h hB hx hr htop (by omega)
  | jmjTpInput fd td => exact run_jmjTpInput h hB hx hr hf fd td
  | jmjTpWeight fd td => exact run_jmjTpWeight h hB hx hr fd td hf
  | jTmjpInput fd td => exact run_jTmjpInput h hB hx hr htop fd td
  | jTmjpWeight fd td => exact run_jTmjpWeight h hB hx hr htop fd td

end

theorem Job.Ready.of_wiring {j : Job} {st st' : Store ℝ} (h : j.Ready st) (hw : Wiring st st') (hh : st'.hooks = st.hooks) : j.Ready st' :=
  ⟨h.ok.of_wiring hw, by rw [hh]; exact h.top, h.pos, h.batch, h.shaped, h.fits⟩

theorem run_all (js : List Job) : ∀ {st : Store ℝ}, (∀ j ∈ js, j.Ready st) → Run (runAll js) st fun _ s' => s'.param = st.param ∧ s'.hooks = st.hooks := by
  induction js with
  | nil => intro st _; exact Run.pure ⟨rfl, rfl⟩
  | cons j js ih =>
    intro st h
    have hj := h j (by simp)
    refine (run_test hj.ok hj.pos hj.batch hj.shaped hj.top j.test hj.fits).bind fun _ s1 S => ?_
    refine (ih fun i hi => (h i (by simp [hi])).of_wiring S.step.wiring S.step.hooks).mono fun _ s2 ⟨h1, h2⟩ => ?_
    exact ⟨h1.trans S.step.param, h2.trans S.step.hooks⟩

/-! ### the helper on nested containers without parameters -/

theorem embedAll_error {vs ws : List (PyVal ℝ)} {e : Err} (h : embedAll vs = .error e) : embedAll (vs ++ ws) = .error e := by
  induction vs with
  | nil => cases h
  | cons v vs ih =>
    simp only [embedAll, List.cons_append] at h ⊢
    cases hv : embed v with
    | error e' => rw [hv] at h; exact h
    | ok t =>
      rw [hv] at h
      simp only [Res.bind_ok] at h ⊢
      cases hvs : embedAll vs with
      | ok ts => rw [hvs] at h; cases h
      | error e' =>
        rw [hvs] at h
        obtain rfl : e' = e := by injection h
        rw [ih hvs]
        rfl

theorem embedAll_last {vs : List (PyVal ℝ)} {v : PyVal ℝ} {ts : List (Tensor ℝ)} {e : Err} (h : embedAll vs = .ok ts) (hv : embed v = .error e) :
    embedAll (vs ++ [v]) = .error e := by
  induction vs generalizing ts with
  | nil => simp only [embedAll, List.nil_append, hv]; rfl
  | cons u vs ih =>
    simp only [embedAll, List.cons_append] at h ⊢
    cases hu : embed u with
    | error e' => rw [hu] at h; cases h
    | ok t =>
      rw [hu] at h
      simp only [Res.bind_ok] at h ⊢
      cases hvs : embedAll vs with
      | error e' => rw [hvs] at h; cases h
      | ok ts => rw [ih hvs]; rfl

theorem notNone_container {randn : Draws} {B : Nat} {s s' : List Nat} {n k p : Nat} (N : Net s n s' k p) (h : N.Container) (i : Nat) :
    notNone (generate randn B N.tree i).1 = true := by
  cases N <;> first | exact h.elim | rfl

theorem container_of_not_full {s s' : List Nat} {n k p : Nat} {N : Net s n s' k p} (h : ¬ N.NestedFull) : N.Container := by
  cases N <;> first | trivial | exact absurd trivial h

theorem gen_zero {randn : Draws} {B : Nat} : {s s' : List Nat} → {n k p l : Nat} → (c : Chain s n s' k p l) → c.NestedFull → p = 0 → (i : Nat) →
    (generateAll randn B c.trees i).1.filter notNone = []
  | _, _, _, _, _, _, .nil _ _ _ _, _, _, _ => by simp [Chain.trees, generateAll]
  | _, _, _, _, _, _, @Chain.snoc _ _ _ _ _ _ p q _ c m, hf, h0, i => by
    simp only [Chain.NestedFull] at hf
    obtain ⟨hc, _, hq⟩ := hf
    have hl : ¬ m.Container := fun h => by have := hq h; omega
    rw [Chain.trees, generateAll_append, List.filter_append, gen_zero c hc (by omega) i, tree_leaf m hl]
    simp [generateAll, generate, show q = 0 by omega, notNone]

mutual
theorem bad_net {randn : Draws} (hr : randn.Shaped) (B : Nat) : {s s' : List Nat} → {n k p : Nat} → (N : Net s n s' k p) → N.Container → p = 0 ∨ ¬ N.NestedFull →
    (i : Nat) → embed (generate randn B N.tree i).1 = .error .index
  | _, _, _, _, _, .seq _ c, _, h, i => by
    simp only [Net.NestedFull] at h
    simp only [Net.tree, generate, embed]
    by_cases hc : c.NestedFull
    · rw [gen_zero c hc (h.resolve_right (not_not.2 hc)) i]; rfl
    · rw [bad_chain hr B c hc i]; rfl
  | _, _, _, _, _, .skip _ _ c, _, h, i => by
    simp only [Net.NestedFull] at h
    simp only [Net.tree, generate, embed]
    by_cases hc : c.NestedFull
    · rw [gen_zero c hc (h.resolve_right (not_not.2 hc)) i]; rfl
    · rw [bad_chain hr B c hc i]; rfl
  | _, _, _, _, _, .linear _ _ _ _ _ _ _, h, _, _ => h.elim
  | _, _, _, _, _, .conv _ _ _ _, h, _, _ => h.elim
  | _, _, _, _, _, .act _ _ _ _ _ _, h, _, _ => h.elim
  | _, _, _, _, _, .flatten _ _ _ _ _, h, _, _ => h.elim
  | _, _, _, _, _, .reshape _ _ _ _ _ _ _ _ _, h, _, _ => h.elim
  | _, _, _, _, _, .l2norm _ _ _ _ _ _ _, h, _, _ => h.elim
  | _, _, _, _, _, .upsample _ _ _ _ _ _ _ _ _, h, _, _ => h.elim
  | _, _, _, _, _, .maxpool _ _, h, _, _ => h.elim
theorem bad_chain {randn : Draws} (hr : randn.Shaped) (B : Nat) : {s s' : List Nat} → {n k p l : Nat} → (c : Chain s n s' k p l) → ¬ c.NestedFull →
    (i : Nat) → embedAll ((generateAll randn B c.trees i).1.filter notNone) = .error .index
  | _, _, _, _, _, _, .nil _ _ _ _, h, _ => by simp [Chain.NestedFull] at h
  | _, _, _, _, _, _, @Chain.snoc _ _ _ _ _ _ p q _ c m, h, i => by
    simp only [Chain.NestedFull] at h
    rw [Chain.trees, generateAll_append, List.filter_append]
    by_cases hc : c.NestedFull
    · obtain ⟨Z, hg⟩ := gen_chain hr B c hc i
      obtain ⟨ts, hts, _⟩ := hg.embed
      have hm : m.Container ∧ (q = 0 ∨ ¬ m.NestedFull) := by
        by_cases hm : m.NestedFull
        · have : ¬ (m.Container → 0 < q) := fun h' => h ⟨hc, hm, h'⟩
          push_neg at this
          exact ⟨this.1, .inl (by omega)⟩
        · exact ⟨container_of_not_full hm, .inr hm⟩
      simp only [generateAll]
      rw [filter_singleton (notNone_container m hm.1 _)]
      exact embedAll_last hts (bad_net hr B m hm.1 hm.2 _)
    · exact embedAll_error (bad_chain hr B c hc i)
end

theorem run_jmjTpWeight_bad {s s' : List Nat} {n k p : Nat} {N : Net s n s' k p} {st : Store ℝ} {B : Nat} {X : Fin B → Fin n → ℝ} {x : Tensor ℝ} {randn : Draws}
    (h : N.Ok st) (hB : 0 < B) (hx : IsBatch x B s n X) (hr : randn.Shaped) (hp : 0 < p) (hN : ¬ N.NestedFull) (td : Bool) :
    ((Test.jmjTpWeight false td).run N.tree N.mod x randn st).1 = .error .index := by
  simp only [Test.run, jmjTpWeight]
  rw [N.nParams_eq, if_neg (by omega)]
  have hj := Run.toSome hp ((Sit.refl h).jacW hB hx hp)
  obtain ⟨r, s1, hr1, hr2, _⟩ := hj
  cases r with
  | none => exact hr2.elim
  | some j =>
    rw [hx.dim0, Prog.bind_lift_ok, Prog.bind_ok hr1, Prog.need_some, Prog.bind_pure_run']
    have hb := bad_net hr B N (container_of_not_full hN) (.inr hN) 0
    cases td <;> simp only [Bool.false_eq_true, if_false, hb, Res.bind_error, Prog.bind_lift_error]

end Tests
end NNJ
