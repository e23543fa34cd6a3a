import Verif.Proofs.NetFacts
import Verif.Spec.Example

/-!
# C03 - C10, C14: the products are products with the matrix returned by `jacobian`

For every network (arbitrary nesting), every state holding it, every batch and every argument.
`∃ jt J, Returns (N.mod.jacobian x none wrt) st (some jt) ∧ IsMat jt B k n J ∧ ...` reads: the call
`jacobian(x, None, wrt)` returns a tensor `jt` of shape `[B, k, n]`, with matrices `J b`, and ...
-/

namespace NNJ
namespace Props
open Matrix

variable {s s' : List Nat} {n k p : Nat} {N : Net s n s' k p} {st : Store ℝ}
variable {B : Nat} {X : Fin B → Fin n → ℝ} {x : Tensor ℝ}

/-- C03, wrt="input": `vjp(x, None, v)[b] = v[b] @ jacobian(x, None)[b]` -/
theorem C03_vjp_input (h : N.Ok st) (hB : 0 < B) (hx : IsBatch x B s n X) :
    ∃ jt J, Returns (N.mod.jacobian x none .input) st (some jt) ∧ IsMat jt B k n J ∧
      ∀ v V, IsVec v B k V →
        ∃ t, Returns (N.mod.vjp x none v .input) st (some t) ∧ IsVec t B n fun b => V b ᵥ* J b := by
  obtain ⟨jt, hj, hJ⟩ := h.jacI hB hx
  exact ⟨jt, _, hj, hJ, fun v V hv => h.vjpI hB hx hv⟩

/-- C03, wrt="weight" -/
theorem C03_vjp_weight (h : N.Ok st) (hB : 0 < B) (hx : IsBatch x B s n X) (hp : 0 < p) :
    ∃ jt J, Returns (N.mod.jacobian x none .weight) st (some jt) ∧ IsMat jt B k p J ∧
      ∀ v V, IsVec v B k V →
        ∃ t, Returns (N.mod.vjp x none v .weight) st (some t) ∧ IsVec t B p fun b => V b ᵥ* J b := by
  obtain ⟨jt, hj, hJ⟩ := h.jacW hB hx hp
  exact ⟨jt, _, hj, hJ, fun v V hv => (h.vjpW hB hx hv).1 hp⟩

/-- C04, wrt="input": `mjp(x, None, M)[b] = M[b] @ jacobian(x, None)[b]` for any number `r` of rows -/
theorem C04_mjp_input (h : N.Ok st) (hB : 0 < B) (hx : IsBatch x B s n X) :
    ∃ jt J, Returns (N.mod.jacobian x none .input) st (some jt) ∧ IsMat jt B k n J ∧
      ∀ r A Z, 0 < r → IsMat A B r k Z →
        ∃ t, Returns (N.mod.mjp x none (some A) .input) st (some t) ∧ IsMat t B r n fun b => Z b * J b := by
  obtain ⟨jt, hj, hJ⟩ := h.jacI hB hx
  exact ⟨jt, _, hj, hJ, fun r A Z hr hA => h.mjpI hB hx hr hA⟩

/-- C04, wrt="weight" -/
theorem C04_mjp_weight (h : N.Ok st) (hB : 0 < B) (hx : IsBatch x B s n X) (hp : 0 < p) :
    ∃ jt J, Returns (N.mod.jacobian x none .weight) st (some jt) ∧ IsMat jt B k p J ∧
      ∀ r A Z, 0 < r → IsMat A B r k Z →
        ∃ t, Returns (N.mod.mjp x none (some A) .weight) st (some t) ∧ IsMat t B r p fun b => Z b * J b := by
  obtain ⟨jt, hj, hJ⟩ := h.jacW hB hx hp
  exact ⟨jt, _, hj, hJ, fun r A Z hr hA => (h.mjpW hB hx hr hA).1 hp⟩

/-- C04: row `i` of `mjp(x, None, M)` is `vjp(x, None, M[:, i])`. -/
theorem C04_mjp_rows_input (h : N.Ok st) (hB : 0 < B) (hx : IsBatch x B s n X) {r : Nat} {A : Tensor ℝ}
    {Z : Fin B → Matrix (Fin r) (Fin k) ℝ} (hA : IsMat A B r k Z) (i : Fin r) {v : Tensor ℝ} (hv : IsVec v B k fun b => Z b i) :
    ∃ t u, Returns (N.mod.mjp x none (some A) .input) st (some t) ∧ Returns (N.mod.vjp x none v .input) st (some u) ∧
      ∀ (b : Fin B) (j : Fin n), t.get [b, i, j] = u.get [b, j] := by
  obtain ⟨t, ht, hT⟩ := h.mjpI hB hx (Nat.lt_of_le_of_lt (Nat.zero_le _) i.2) hA
  obtain ⟨u, hu, hU⟩ := h.vjpI hB hx hv
  exact ⟨t, u, ht, hu, fun b j => by rw [hT.2 b i j, hU.2 b j]; rfl⟩

theorem C04_mjp_rows_weight (h : N.Ok st) (hB : 0 < B) (hx : IsBatch x B s n X) (hp : 0 < p) {r : Nat} {A : Tensor ℝ}
    {Z : Fin B → Matrix (Fin r) (Fin k) ℝ} (hA : IsMat A B r k Z) (i : Fin r) {v : Tensor ℝ} (hv : IsVec v B k fun b => Z b i) :
    ∃ t u, Returns (N.mod.mjp x none (some A) .weight) st (some t) ∧ Returns (N.mod.vjp x none v .weight) st (some u) ∧
      ∀ (b : Fin B) (j : Fin p), t.get [b, i, j] = u.get [b, j] := by
  obtain ⟨t, ht, hT⟩ := (h.mjpW hB hx (Nat.lt_of_le_of_lt (Nat.zero_le _) i.2) hA).1 hp
  obtain ⟨u, hu, hU⟩ := (h.vjpW hB hx hv).1 hp
  exact ⟨t, u, ht, hu, fun b j => by rw [hT.2 b i j, hU.2 b j]; rfl⟩

/-- C05, wrt="input": `jvp(x, None, v)[b] = jacobian(x, None)[b] @ v[b]` -/
theorem C05_jvp_input (hf : N.FwdI) (h : N.Ok st) (hB : 0 < B) (hx : IsBatch x B s n X) :
    ∃ jt J, Returns (N.mod.jacobian x none .input) st (some jt) ∧ IsMat jt B k n J ∧
      ∀ v V, IsVec v B n V →
        ∃ t, Returns (N.mod.jvp x none v .input) st (some t) ∧ IsVec t B k fun b => J b *ᵥ V b := by
  obtain ⟨jt, hj, hJ⟩ := h.jacI hB hx
  exact ⟨jt, _, hj, hJ, fun v V hv => h.jvpI hf hB hx hv⟩

/-- C05, wrt="weight" -/
theorem C05_jvp_weight (hf : N.FwdI) (hw : N.FwdW) (h : N.Ok st) (hB : 0 < B) (hx : IsBatch x B s n X) (hp : 0 < p) :
    ∃ jt J, Returns (N.mod.jacobian x none .weight) st (some jt) ∧ IsMat jt B k p J ∧
      ∀ v V, IsVec v B p V →
        ∃ t, Returns (N.mod.jvp x none v .weight) st (some t) ∧ IsVec t B k fun b => J b *ᵥ V b := by
  obtain ⟨jt, hj, hJ⟩ := h.jacW hB hx hp
  exact ⟨jt, _, hj, hJ, fun v V hv => (h.jvpW hf hw hB hx hv).1 hp⟩

/-- C06, wrt="input": `jmp(x, None, M)[b] = jacobian(x, None)[b] @ M[b]` for any number `r` of columns -/
theorem C06_jmp_input (hf : N.FwdI) (h : N.Ok st) (hB : 0 < B) (hx : IsBatch x B s n X) :
    ∃ jt J, Returns (N.mod.jacobian x none .input) st (some jt) ∧ IsMat jt B k n J ∧
      ∀ r A Z, IsMat A B n r Z →
        ∃ t, Returns (N.mod.jmp x none (some A) .input) st (some t) ∧ IsMat t B k r fun b => J b * Z b := by
  obtain ⟨jt, hj, hJ⟩ := h.jacI hB hx
  exact ⟨jt, _, hj, hJ, fun r A Z hA => h.jmpI hf hB hx hA⟩

/-- C06, wrt="weight" -/
theorem C06_jmp_weight (hf : N.FwdI) (hw : N.FwdW) (h : N.Ok st) (hB : 0 < B) (hx : IsBatch x B s n X) (hp : 0 < p) :
    ∃ jt J, Returns (N.mod.jacobian x none .weight) st (some jt) ∧ IsMat jt B k p J ∧
      ∀ r A Z, IsMat A B p r Z →
        ∃ t, Returns (N.mod.jmp x none (some A) .weight) st (some t) ∧ IsMat t B k r fun b => J b * Z b := by
  obtain ⟨jt, hj, hJ⟩ := h.jacW hB hx hp
  exact ⟨jt, _, hj, hJ, fun r A Z hA => (h.jmpW hf hw hB hx hA).1 hp⟩

/-- C07: `jTmjp(x, None, M, wrt="input")` is `Jᵀ M J`, for the four combinations of flags: `MetricArg` says
how `M` is passed (diagonal or full), `MetricOut` what is returned. -/
theorem C07_jTmjp_input (h : N.Ok st) (hB : 0 < B) (hx : IsBatch x B s n X) :
    ∃ jt J, Returns (N.mod.jacobian x none .input) st (some jt) ∧ IsMat jt B k n J ∧
      ∀ fromDiag toDiag A Z, MetricArg fromDiag A B k Z →
        ∃ t, Returns (N.mod.jTmjp x none (some A) .input fromDiag toDiag false) st (.tensor t) ∧
          MetricOut toDiag t B n fun b => (J b)ᵀ * Z b * J b := by
  obtain ⟨jt, hj, hJ⟩ := h.jacI hB hx
  exact ⟨jt, _, hj, hJ, fun fd td A Z hA => h.jTI hB hx fd td hA⟩

/-- C07: `to_diag=True` returns the diagonal of what `to_diag=False` returns. -/
theorem C07_to_diag (h : N.Ok st) (hB : 0 < B) (hx : IsBatch x B s n X) (fromDiag : Bool) {A : Tensor ℝ}
    {Z : Fin B → Matrix (Fin k) (Fin k) ℝ} (hA : MetricArg fromDiag A B k Z) :
    ∃ t u, Returns (N.mod.jTmjp x none (some A) .input fromDiag true false) st (.tensor t) ∧
      Returns (N.mod.jTmjp x none (some A) .input fromDiag false false) st (.tensor u) ∧
      ∀ (b : Fin B) (i : Fin n), t.get [b, i] = u.get [b, i, i] := by
  obtain ⟨t, ht, hT⟩ := h.jTI hB hx fromDiag true hA
  obtain ⟨u, hu, hU⟩ := h.jTI hB hx fromDiag false hA
  simp only [MetricOut, if_true] at hT
  simp only [MetricOut, Bool.false_eq_true, if_false] at hU
  exact ⟨t, u, ht, hu, fun b i => by rw [hT.2 b i, hU.2 b i i]; rfl⟩

/-- C07: `from_diag=True` on `m` is `from_diag=False` on `diag_embed(m)`. -/
theorem C07_from_diag (h : N.Ok st) (hB : 0 < B) (hx : IsBatch x B s n X) {m A : Tensor ℝ} {d : Fin B → Fin k → ℝ}
    (hm : IsVec m B k d) (hA : IsMat A B k k fun b => diagonal (d b)) :
    ∃ t u, Returns (N.mod.jTmjp x none (some m) .input true false false) st (.tensor t) ∧
      Returns (N.mod.jTmjp x none (some A) .input false false false) st (.tensor u) ∧
      ∀ (b : Fin B) (i j : Fin n), t.get [b, i, j] = u.get [b, i, j] := by
  obtain ⟨t, ht, hT⟩ := h.jTI hB hx (A := m) (Z := fun b => diagonal (d b)) true false ⟨d, hm, fun _ => rfl⟩
  obtain ⟨u, hu, hU⟩ := h.jTI hB hx (A := A) (Z := fun b => diagonal (d b)) false false hA
  simp only [MetricOut, Bool.false_eq_true, if_false] at hT hU
  exact ⟨t, u, ht, hu, fun b i j => by rw [hT.2 b i j, hU.2 b i j]⟩

/-- C08: `jTmjp(x, None, M, wrt="weight", to_diag=True)` is the diagonal of `Jwᵀ M Jw`. -/
theorem C08_jTmjp_weight_diag (h : N.Ok st) (hB : 0 < B) (hx : IsBatch x B s n X) (hp : 0 < p) :
    ∃ jt J, Returns (N.mod.jacobian x none .weight) st (some jt) ∧ IsMat jt B k p J ∧
      ∀ fromDiag A Z, MetricArg fromDiag A B k Z →
        ∃ t, Returns (N.mod.jTmjp x none (some A) .weight fromDiag true false) st (.tensor t) ∧
          IsVec t B p fun b => diag ((J b)ᵀ * Z b * J b) := by
  obtain ⟨jt, hj, hJ⟩ := h.jacW hB hx hp
  exact ⟨jt, _, hj, hJ, fun fd A Z hA => (h.jTWd hB hx fd hA).1 hp⟩

/-- C08: with `to_diag=False` the result is the nested list of the per-layer diagonal blocks of `Jwᵀ M Jw`
(a tensor for a single layer), see `Net.Blocks`. -/
theorem C08_jTmjp_weight_blocks (h : N.Ok st) (hB : 0 < B) (hx : IsBatch x B s n X) (hp : 0 < p) :
    ∃ jt J, Returns (N.mod.jacobian x none .weight) st (some jt) ∧ IsMat jt B k p J ∧
      ∀ fromDiag A Z, MetricArg fromDiag A B k Z →
        ∃ v, Returns (N.mod.jTmjp x none (some A) .weight fromDiag false false) st v ∧
          N.Blocks v B fun b => (J b)ᵀ * Z b * J b := by
  obtain ⟨jt, hj, hJ⟩ := h.jacW hB hx hp
  exact ⟨jt, _, hj, hJ, fun fd A Z hA => (h.jTWf hB hx fd hA).1 hp⟩

/-- C09: `jmjTp(x, None, M, wrt="input")` is `J M Jᵀ`, for the four combinations of flags. -/
theorem C09_jmjTp_input (hf : N.FwdI) (h : N.Ok st) (hB : 0 < B) (hx : IsBatch x B s n X) :
    ∃ jt J, Returns (N.mod.jacobian x none .input) st (some jt) ∧ IsMat jt B k n J ∧
      ∀ fromDiag toDiag A Z, MetricArg fromDiag A B n Z →
        ∃ t, Returns (N.mod.jmjTp x none (.tensor A) .input fromDiag toDiag false) st (some t) ∧
          MetricOut toDiag t B k fun b => J b * Z b * (J b)ᵀ := by
  obtain ⟨jt, hj, hJ⟩ := h.jacI hB hx
  exact ⟨jt, _, hj, hJ, fun fd td A Z hA => h.jmjI hf hB hx fd td hA⟩

/-- C10: `jmjTp(x, None, M, wrt="weight")` is `Jw M' Jwᵀ` where `M'` keeps exactly the entries of `M` that
couple two parameters of the same layer. -/
theorem C10_jmjTp_weight (hf : N.PushW) (h : N.Ok st) (hB : 0 < B) (hx : IsBatch x B s n X) (hp : 0 < p) :
    ∃ jt J, Returns (N.mod.jacobian x none .weight) st (some jt) ∧ IsMat jt B k p J ∧
      ∀ fromDiag toDiag A Z, MetricArg fromDiag A B p Z →
        ∃ t, Returns (N.mod.jmjTp x none (.tensor A) .weight fromDiag toDiag false) st (some t) ∧
          MetricOut toDiag t B k fun b => J b * N.sem.mask (Z b) * (J b)ᵀ := by
  obtain ⟨jt, hj, hJ⟩ := h.jacW hB hx hp
  exact ⟨jt, _, hj, hJ, fun fd td A Z hA => h.jmjW hf hp hB hx fd td (h.g.arg_of_metric hA)⟩

/-- C10: in particular it is `Jw diag(m) Jwᵀ` exactly when `from_diag=True`. -/
theorem C10_jmjTp_weight_diag (hf : N.PushW) (h : N.Ok st) (hB : 0 < B) (hx : IsBatch x B s n X) (hp : 0 < p) :
    ∃ jt J, Returns (N.mod.jacobian x none .weight) st (some jt) ∧ IsMat jt B k p J ∧
      ∀ toDiag m d, IsVec m B p d →
        ∃ t, Returns (N.mod.jmjTp x none (.tensor m) .weight true toDiag false) st (some t) ∧
          MetricOut toDiag t B k fun b => J b * diagonal (d b) * (J b)ᵀ := by
  obtain ⟨jt, hj, hJ⟩ := h.jacW hB hx hp
  refine ⟨jt, _, hj, hJ, fun td m d hm => ?_⟩
  have hA : MetricArg true m B p fun b => diagonal (d b) := ⟨d, hm, fun _ => rfl⟩
  have := h.jmjW hf hp hB hx true td (h.g.arg_of_metric hA)
  have hmask : ∀ d, N.sem.mask (diagonal d) = diagonal d := fun d => by
    have := h.g.mask_diag d
    rwa [Net.mdl_S] at this
  simp only [hmask] at this
  exact this

/-- C10: a nested list of blocks, as returned by `jTmjp(to_diag=False)`, is used block by block. -/
theorem C10_jmjTp_weight_list (hf : N.PushW) (h : N.Ok st) (hB : 0 < B) (hx : IsBatch x B s n X) (hp : 0 < p) :
    ∃ jt J, Returns (N.mod.jacobian x none .weight) st (some jt) ∧ IsMat jt B k p J ∧
      ∀ toDiag v Z, N.Blocks v B Z →
        ∃ t, Returns (N.mod.jmjTp x none v .weight false toDiag false) st (some t) ∧
          MetricOut toDiag t B k fun b => J b * N.sem.mask (Z b) * (J b)ᵀ := by
  obtain ⟨jt, hj, hJ⟩ := h.jacW hB hx hp
  exact ⟨jt, _, hj, hJ, fun td v Z hA => h.jmjW hf hp hB hx false td (h.g.arg_of_blocks ((N.mdl_blocks v B Z).2 hA))⟩

/-- C14: `<v, jvp(x, None, u)> = <vjp(x, None, v), u>`, wrt="input" -/
theorem C14_adjoint_input (hf : N.FwdI) (h : N.Ok st) (hB : 0 < B) (hx : IsBatch x B s n X) {u v : Tensor ℝ} {U V}
    (hu : IsVec u B n U) (hv : IsVec v B k V) :
    ∃ t t' T T', Returns (N.mod.jvp x none u .input) st (some t) ∧ IsVec t B k T ∧
      Returns (N.mod.vjp x none v .input) st (some t') ∧ IsVec t' B n T' ∧ ∀ b, V b ⬝ᵥ T b = T' b ⬝ᵥ U b := by
  obtain ⟨t, ht, hT⟩ := h.jvpI hf hB hx hu
  obtain ⟨t', ht', hT'⟩ := h.vjpI hB hx hv
  exact ⟨t, t', _, _, ht, hT, ht', hT', fun b => by rw [dotProduct_mulVec]⟩

/-- C14, wrt="weight" -/
theorem C14_adjoint_weight (hf : N.FwdI) (hw : N.FwdW) (h : N.Ok st) (hB : 0 < B) (hx : IsBatch x B s n X) (hp : 0 < p)
    {u v : Tensor ℝ} {U V} (hu : IsVec u B p U) (hv : IsVec v B k V) :
    ∃ t t' T T', Returns (N.mod.jvp x none u .weight) st (some t) ∧ IsVec t B k T ∧
      Returns (N.mod.vjp x none v .weight) st (some t') ∧ IsVec t' B p T' ∧ ∀ b, V b ⬝ᵥ T b = T' b ⬝ᵥ U b := by
  obtain ⟨t, ht, hT⟩ := (h.jvpW hf hw hB hx hu).1 hp
  obtain ⟨t', ht', hT'⟩ := (h.vjpW hB hx hv).1 hp
  exact ⟨t, t', _, _, ht, hT, ht', hT', fun b => by rw [dotProduct_mulVec]⟩

/-! ### the hypotheses can be met: a network with Linear, Tanh, SkipConnection and nested Sequential -/

theorem exNet_fwdI : exNet.FwdI := by simp [exNet, Net.FwdI, Chain.FwdI]
theorem exNet_fwdW : exNet.FwdW := by simp [exNet, Net.FwdW, Chain.FwdW]

example := C03_vjp_input exNet_ok two_pos exInput_isBatch
example := C03_vjp_weight exNet_ok two_pos exInput_isBatch (by norm_num)
example := C04_mjp_input exNet_ok two_pos exInput_isBatch
example := C04_mjp_weight exNet_ok two_pos exInput_isBatch (by norm_num)
example := C05_jvp_input exNet_fwdI exNet_ok two_pos exInput_isBatch
example := C05_jvp_weight exNet_fwdI exNet_fwdW exNet_ok two_pos exInput_isBatch (by norm_num)
example := C06_jmp_input exNet_fwdI exNet_ok two_pos exInput_isBatch
example := C06_jmp_weight exNet_fwdI exNet_fwdW exNet_ok two_pos exInput_isBatch (by norm_num)
example := C07_jTmjp_input exNet_ok two_pos exInput_isBatch
example := C08_jTmjp_weight_diag exNet_ok two_pos exInput_isBatch (by norm_num)
example := C08_jTmjp_weight_blocks exNet_ok two_pos exInput_isBatch (by norm_num)
example := C09_jmjTp_input exNet_fwdI exNet_ok two_pos exInput_isBatch
example := C10_jmjTp_weight exNet_fwdI.pushW exNet_ok two_pos exInput_isBatch (by norm_num)
example := C10_jmjTp_weight_list exNet_fwdI.pushW exNet_ok two_pos exInput_isBatch (by norm_num)
example (b : Fin 2 → Fin 1 → ℝ) (v : Tensor ℝ) (hv : IsVec v 2 1 b) (u : Tensor ℝ) (U : Fin 2 → Fin 2 → ℝ) (hu : IsVec u 2 2 U) :=
  C14_adjoint_input exNet_fwdI exNet_ok two_pos exInput_isBatch hu hv

end Props
end NNJ
