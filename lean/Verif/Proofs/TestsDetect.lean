import Verif.Proofs.TestsRun

/-! What the tests detect. -/

namespace NNJ
namespace Tests
open Tensor Matrix

theorem lift_then {β γ : Type} {r : Res β} {b : β} (h : r = .ok b) {f : β → Prog ℝ γ} {st : Store ℝ} : ((liftM r : Prog ℝ β) >>= f) st = f b st := by
  subst h; rfl

open Classical in
theorem check_run {a b : Tensor ℝ} {st : Store ℝ} :
    check a b st = (.ok (), st) ↔ a.shape = b.shape ∧ ∀ i < size b.shape, Near (a.data i) (b.data i) := by
  by_cases h : a.shape = b.shape
  · have e : isCloseAll a b = .ok (decide (∀ i < size b.shape, Near (a.data i) (b.data i))) := by
      simp only [isCloseAll, zipWithB, h, if_true]
      show Except.ok _ = Except.ok _
      congr 1
      refine decide_eq_decide.2 (forall_congr' fun i => forall_congr' fun hi => ?_)
      show ite _ _ _ = (1 : ℝ) ↔ _
      by_cases hc : |a.data i - b.data i| ≤ 1 / 10000 + 1 / 100000 * |b.data i|
      · simp [hc, Near]
      · rw [if_neg hc]
        exact ⟨fun h => absurd h (by norm_num), fun h => absurd h hc⟩
    simp only [check, h, beq_self_eq_true, Prog.assert_true, Prog.bind_pure_run', e, Prog.bind_lift_ok]
    by_cases hc : ∀ i < size b.shape, Near (a.data i) (b.data i)
    · rw [decide_eq_true hc]
      exact ⟨fun _ => ⟨trivial, hc⟩, fun _ => rfl⟩
    · rw [decide_eq_false hc]
      exact ⟨fun h => (by rw [Prog.assert_false, Prog.throw_run] at h; injection h with h _; cases h), fun h => absurd h.2 hc⟩
  · have : (a.shape == b.shape) = false := by simpa using h
    simp only [check, this, Prog.assert_false, Prog.bind_throw_run, h, false_and, iff_false]
    exact fun h => by injection h with h _; cases h

theorem near_batch {a b : Tensor ℝ} {B n : Nat} {s : List Nat} {F G : Fin B → Fin n → ℝ} (hs : size s = n) (ha : IsBatch a B s n F) (hb : IsBatch b B s n G) :
    (a.shape = b.shape ∧ ∀ i < size b.shape, Near (a.data i) (b.data i)) ↔ ∀ (c : Fin B) (i : Fin n), Near (F c i) (G c i) := by
  constructor
  · intro ⟨_, h⟩ c i
    have := h (c * n + i) (by rw [hb.1, size_cons, hs]; exact (finProdFinEquiv (c, i)).2.trans_eq' (by simp [Nat.mul_comm, Nat.add_comm]))
    rwa [ha.2 c i, hb.2 c i] at this
  · refine fun h => ⟨ha.1.trans hb.1.symm, fun i hi => ?_⟩
    rw [hb.1, size_cons, hs] at hi
    have hn : 0 < n := Nat.pos_of_ne_zero fun h0 => by simp [h0] at hi
    have := h ⟨i / n, Nat.div_lt_of_lt_mul (by rw [Nat.mul_comm]; exact hi)⟩ ⟨i % n, Nat.mod_lt _ hn⟩
    rw [← ha.2, ← hb.2] at this
    simpa only [Nat.div_add_mod'] using this

theorem check_vec {a b : Tensor ℝ} {B n : Nat} {F G : Fin B → Fin n → ℝ} (ha : IsVec a B n F) (hb : IsVec b B n G) {st : Store ℝ} :
    check a b st = (.ok (), st) ↔ ∀ c i, Near (F c i) (G c i) :=
  check_run.trans (near_batch (by simp [size]) (isVec_iff_batch.1 ha) (isVec_iff_batch.1 hb))

theorem mat_batch {t : Tensor ℝ} {B m n : Nat} {M : Fin B → Matrix (Fin m) (Fin n) ℝ} (h : IsMat t B m n M) :
    IsBatch t B [m, n] (m * n) fun b i => M b (finProdFinEquiv.symm i).1 (finProdFinEquiv.symm i).2 := by
  refine ⟨h.1, fun b i => ?_⟩
  refine Eq.trans ?_ (h.data b _ _)
  congr 1
  have := congrArg Fin.val (finProdFinEquiv.apply_symm_apply i)
  simp only [finProdFinEquiv_apply_val] at this
  rw [← this]
  simp [Nat.mul_comm, Nat.add_comm]

theorem check_mat {a b : Tensor ℝ} {B m n : Nat} {F G : Fin B → Matrix (Fin m) (Fin n) ℝ} (ha : IsMat a B m n F) (hb : IsMat b B m n G) {st : Store ℝ} :
    check a b st = (.ok (), st) ↔ ∀ c i j, Near (F c i j) (G c i j) := by
  refine (check_run.trans (near_batch (by simp [size]) (mat_batch ha) (mat_batch hb))).trans ?_
  refine forall_congr' fun c => ⟨fun h i j => ?_, fun h i => h _ _⟩
  simpa using h (finProdFinEquiv (i, j))

theorem check_or {a b : Tensor ℝ} (st : Store ℝ) : check a b st = (.ok (), st) ∨ check a b st = (.error .assertion, st) := by
  by_cases h : a.shape = b.shape
  · simp only [check, h, beq_self_eq_true, Prog.assert_true, Prog.bind_pure_run']
    obtain ⟨d, hd⟩ : ∃ d, isCloseAll a b = .ok d := by
      simp only [isCloseAll, zipWithB, h, if_true, Res.bind_ok]
      exact ⟨_, rfl⟩
    rw [hd]
    cases d with
    | true => exact .inl rfl
    | false => exact .inr rfl
  · have : (a.shape == b.shape) = false := by simpa using h
    simp only [check, this, Prog.assert_false, Prog.bind_throw_run]
    exact .inr trivial

theorem verdict_of_iff {a b : Tensor ℝ} {st : Store ℝ} {P : Prop} (h : check a b st = (.ok (), st) ↔ P) : Verdict (check a b st) st P :=
  ⟨h.2, fun hp => (check_or st).resolve_left fun h' => hp (h.1 h')⟩

theorem verdict_vec {a b : Tensor ℝ} {B n : Nat} {G : Fin B → Fin n → ℝ} (hb : IsVec b B n G) {st : Store ℝ} : Verdict (check a b st) st (NearVec a B n G) := by
  refine verdict_of_iff ⟨fun h => ?_, fun h => (check_vec ⟨h.1, fun _ _ => rfl⟩ hb).2 h.2⟩
  have hs : a.shape = [B, n] := (check_run.1 h).1.trans hb.1
  exact ⟨hs, (check_vec ⟨hs, fun _ _ => rfl⟩ hb).1 h⟩

theorem verdict_mat {a b : Tensor ℝ} {B m n : Nat} {G : Fin B → Matrix (Fin m) (Fin n) ℝ} (hb : IsMat b B m n G) {st : Store ℝ} :
    Verdict (check a b st) st (NearMat a B m n G) := by
  refine verdict_of_iff ⟨fun h => ?_, fun h => (check_mat ⟨h.1, fun _ _ _ => rfl⟩ hb).2 h.2⟩
  have hs : a.shape = [B, m, n] := (check_run.1 h).1.trans hb.1
  exact ⟨hs, (check_mat ⟨hs, fun _ _ _ => rfl⟩ hb).1 h⟩

theorem verdict_metric {td : Bool} {a b : Tensor ℝ} {B k : Nat} {G : Fin B → Matrix (Fin k) (Fin k) ℝ} (hb : MetricOut td b B k G) {st : Store ℝ} :
    Verdict (check a b st) st (NearMetric td a B k G) := by
  cases td
  · exact verdict_mat hb
  · exact verdict_vec hb

end Tests
end NNJ
