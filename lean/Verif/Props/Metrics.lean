import Verif.Proofs.Mask
import Verif.Spec.Example

/-!
# C15: metrics stay symmetric and positive semidefinite
-/

namespace NNJ
namespace Props
open Matrix

variable {s s' : List Nat} {n k p : Nat} {N : Net s n s' k p} {st : Store ℝ}
variable {B : Nat} {X : Fin B → Fin n → ℝ} {x : Tensor ℝ}

/-- C15, jTmjp wrt input, full matrices returned -/
theorem C15_jTmjp_input (h : N.Ok st) (hB : 0 < B) (hx : IsBatch x B s n X) (fromDiag : Bool) {A : Tensor ℝ} {Z}
    (hA : MetricArg fromDiag A B k Z) :
    ∃ t T, Returns (N.mod.jTmjp x none (some A) .input fromDiag false false) st (.tensor t) ∧ IsMat t B n n T ∧
      ∀ b, ((Z b).IsSymm → (T b).IsSymm) ∧ ((Z b).PosSemidef → (T b).PosSemidef) := by
  obtain ⟨t, ht, hT⟩ := h.jTI hB hx fromDiag false hA
  exact ⟨t, _, ht, hT, fun b => ⟨fun hZ => isSymm_conj hZ _, fun hZ => posSemidef_conj hZ _⟩⟩

/-- C15, jTmjp wrt input, diagonal returned: no negative entry -/
theorem C15_jTmjp_input_diag (h : N.Ok st) (hB : 0 < B) (hx : IsBatch x B s n X) (fromDiag : Bool) {A : Tensor ℝ} {Z}
    (hA : MetricArg fromDiag A B k Z) :
    ∃ t T, Returns (N.mod.jTmjp x none (some A) .input fromDiag true false) st (.tensor t) ∧ IsVec t B n T ∧
      ∀ b, (Z b).PosSemidef → ∀ i, 0 ≤ T b i := by
  obtain ⟨t, ht, hT⟩ := h.jTI hB hx fromDiag true hA
  exact ⟨t, _, ht, hT, fun b hZ i => (posSemidef_conj hZ _).diag_nonneg⟩

/-- C15, jTmjp wrt weight, diagonal returned -/
theorem C15_jTmjp_weight_diag (h : N.Ok st) (hB : 0 < B) (hx : IsBatch x B s n X) (hp : 0 < p) (fromDiag : Bool) {A : Tensor ℝ} {Z}
    (hA : MetricArg fromDiag A B k Z) :
    ∃ t T, Returns (N.mod.jTmjp x none (some A) .weight fromDiag true false) st (.tensor t) ∧ IsVec t B p T ∧
      ∀ b, (Z b).PosSemidef → ∀ i, 0 ≤ T b i := by
  obtain ⟨t, ht, hT⟩ := (h.jTWd hB hx fromDiag hA).1 hp
  exact ⟨t, _, ht, hT, fun b hZ i => (posSemidef_conj hZ _).diag_nonneg⟩

/-- C15, jTmjp wrt weight, blocks returned: they are the diagonal blocks of a matrix that is symmetric
(positive semidefinite) if the metric is -/
theorem C15_jTmjp_weight_blocks (h : N.Ok st) (hB : 0 < B) (hx : IsBatch x B s n X) (hp : 0 < p) (fromDiag : Bool) {A : Tensor ℝ} {Z}
    (hA : MetricArg fromDiag A B k Z) :
    ∃ v T, Returns (N.mod.jTmjp x none (some A) .weight fromDiag false false) st v ∧ N.Blocks v B T ∧
      ∀ b, ((Z b).IsSymm → (T b).IsSymm) ∧ ((Z b).PosSemidef → (T b).PosSemidef) := by
  obtain ⟨t, ht, hT⟩ := (h.jTWf hB hx fromDiag hA).1 hp
  exact ⟨t, _, ht, hT, fun b => ⟨fun hZ => isSymm_conj hZ _, fun hZ => posSemidef_conj hZ _⟩⟩

/-- C15, jmjTp wrt input -/
theorem C15_jmjTp_input (hf : N.FwdI) (h : N.Ok st) (hB : 0 < B) (hx : IsBatch x B s n X) (fromDiag : Bool) {A : Tensor ℝ} {Z}
    (hA : MetricArg fromDiag A B n Z) :
    ∃ t T, Returns (N.mod.jmjTp x none (.tensor A) .input fromDiag false false) st (some t) ∧ IsMat t B k k T ∧
      ∀ b, ((Z b).IsSymm → (T b).IsSymm) ∧ ((Z b).PosSemidef → (T b).PosSemidef) := by
  obtain ⟨t, ht, hT⟩ := h.jmjI hf hB hx fromDiag false hA
  exact ⟨t, _, ht, hT, fun b => ⟨fun hZ => isSymm_conj' hZ _, fun hZ => posSemidef_conj' hZ _⟩⟩

theorem C15_jmjTp_input_diag (hf : N.FwdI) (h : N.Ok st) (hB : 0 < B) (hx : IsBatch x B s n X) (fromDiag : Bool) {A : Tensor ℝ} {Z}
    (hA : MetricArg fromDiag A B n Z) :
    ∃ t T, Returns (N.mod.jmjTp x none (.tensor A) .input fromDiag true false) st (some t) ∧ IsVec t B k T ∧
      ∀ b, (Z b).PosSemidef → ∀ i, 0 ≤ T b i := by
  obtain ⟨t, ht, hT⟩ := h.jmjI hf hB hx fromDiag true hA
  exact ⟨t, _, ht, hT, fun b hZ i => (posSemidef_conj' hZ _).diag_nonneg⟩

/-- C15, jmjTp wrt weight (only the per-layer blocks of the metric are used; that keeps it semidefinite) -/
theorem C15_jmjTp_weight (hf : N.PushW) (h : N.Ok st) (hB : 0 < B) (hx : IsBatch x B s n X) (hp : 0 < p) (fromDiag : Bool) {A : Tensor ℝ} {Z}
    (hA : MetricArg fromDiag A B p Z) :
    ∃ t T, Returns (N.mod.jmjTp x none (.tensor A) .weight fromDiag false false) st (some t) ∧ IsMat t B k k T ∧
      ∀ b, ((Z b).IsSymm → (T b).IsSymm) ∧ ((Z b).PosSemidef → (T b).PosSemidef) := by
  obtain ⟨t, ht, hT⟩ := h.jmjW hf hp hB hx fromDiag false (h.g.arg_of_metric hA)
  exact ⟨t, _, ht, hT, fun b => ⟨fun hZ => isSymm_conj' (N.maskPSD.2 _ hZ) _, fun hZ => posSemidef_conj' (N.maskPSD.1 _ hZ) _⟩⟩

theorem C15_jmjTp_weight_diag (hf : N.PushW) (h : N.Ok st) (hB : 0 < B) (hx : IsBatch x B s n X) (hp : 0 < p) (fromDiag : Bool) {A : Tensor ℝ} {Z}
    (hA : MetricArg fromDiag A B p Z) :
    ∃ t T, Returns (N.mod.jmjTp x none (.tensor A) .weight fromDiag true false) st (some t) ∧ IsVec t B k T ∧
      ∀ b, (Z b).PosSemidef → ∀ i, 0 ≤ T b i := by
  obtain ⟨t, ht, hT⟩ := h.jmjW hf hp hB hx fromDiag true (h.g.arg_of_metric hA)
  exact ⟨t, _, ht, hT, fun b hZ i => (posSemidef_conj' (N.maskPSD.1 _ hZ) _).diag_nonneg⟩

/-- the identity metric, passed as a diagonal, on the example network -/
example : ∃ t T, Returns (exNet.mod.jTmjp exInput none (some ⟨[2, 1], fun _ => 1⟩) .input true false false) exStore (.tensor t) ∧
    IsMat t 2 2 2 T ∧ ∀ b, (T b).PosSemidef := by
  obtain ⟨t, T, h1, h2, h3⟩ := C15_jTmjp_input exNet_ok two_pos exInput_isBatch true (A := ⟨[2, 1], fun _ => 1⟩)
    (Z := fun _ => diagonal fun _ => 1) ⟨fun _ _ => 1, ⟨rfl, fun _ _ => rfl⟩, fun _ => rfl⟩
  exact ⟨t, T, h1, h2, fun b => (h3 b).2 (by rw [diagonal_one]; exact PosSemidef.one)⟩

end Props
end NNJ
