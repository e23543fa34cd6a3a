import Verif.Proofs.NetFacts
import Verif.Spec.Example

/-!
# C16: samples in a batch do not interact

Two batches, of any sizes, and positions `b`, `b'` in them that hold the same sample (and the same
vector, matrix row ...): the results at these positions are equal.
-/

namespace NNJ
namespace Props
open Matrix

variable {s s' : List Nat} {n k p : Nat} {N : Net s n s' k p} {st : Store ℝ}
variable {B : Nat} {X : Fin B → Fin n → ℝ} {x : Tensor ℝ}
variable {B' : Nat} {X' : Fin B' → Fin n → ℝ} {x' : Tensor ℝ}

/-- C16, forward (outputs compared flattened) -/
theorem C16_forward (h : N.Ok st) (hB : 0 < B) (hx : IsBatch x B s n X) (hB' : 0 < B') (hx' : IsBatch x' B' s n X') :
    ∃ t t' Y Y', Returns (N.mod.forward x) st t ∧ IsBatch t B s' k Y ∧ Returns (N.mod.forward x') st t' ∧ IsBatch t' B' s' k Y' ∧
      ∀ b b', X b = X' b' → Y b = Y' b' := by
  obtain ⟨t, ht, hT⟩ := h.forward hB hx
  obtain ⟨t', ht', hT'⟩ := h.forward hB' hx'
  exact ⟨t, t', _, _, ht, hT, ht', hT', fun b b' hb => by rw [hb]⟩

/-- C16, jacobian -/
theorem C16_jacobian_input (h : N.Ok st) (hB : 0 < B) (hx : IsBatch x B s n X) (hB' : 0 < B') (hx' : IsBatch x' B' s n X') :
    ∃ t t' J J', Returns (N.mod.jacobian x none .input) st (some t) ∧ IsMat t B k n J ∧
      Returns (N.mod.jacobian x' none .input) st (some t') ∧ IsMat t' B' k n J' ∧ ∀ b b', X b = X' b' → J b = J' b' := by
  obtain ⟨t, ht, hT⟩ := h.jacI hB hx
  obtain ⟨t', ht', hT'⟩ := h.jacI hB' hx'
  exact ⟨t, t', _, _, ht, hT, ht', hT', fun b b' hb => by rw [hb]⟩

theorem C16_jacobian_weight (h : N.Ok st) (hp : 0 < p) (hB : 0 < B) (hx : IsBatch x B s n X) (hB' : 0 < B') (hx' : IsBatch x' B' s n X') :
    ∃ t t' J J', Returns (N.mod.jacobian x none .weight) st (some t) ∧ IsMat t B k p J ∧
      Returns (N.mod.jacobian x' none .weight) st (some t') ∧ IsMat t' B' k p J' ∧ ∀ b b', X b = X' b' → J b = J' b' := by
  obtain ⟨t, ht, hT⟩ := h.jacW hB hx hp
  obtain ⟨t', ht', hT'⟩ := h.jacW hB' hx' hp
  exact ⟨t, t', _, _, ht, hT, ht', hT', fun b b' hb => by rw [hb]⟩

/-- C16, vjp -/
theorem C16_vjp_input (h : N.Ok st) (hB : 0 < B) (hx : IsBatch x B s n X) (hB' : 0 < B') (hx' : IsBatch x' B' s n X')
    {v v' : Tensor ℝ} {V V'} (hv : IsVec v B k V) (hv' : IsVec v' B' k V') :
    ∃ t t' T T', Returns (N.mod.vjp x none v .input) st (some t) ∧ IsVec t B n T ∧
      Returns (N.mod.vjp x' none v' .input) st (some t') ∧ IsVec t' B' n T' ∧ ∀ b b', X b = X' b' → V b = V' b' → T b = T' b' := by
  obtain ⟨t, ht, hT⟩ := h.vjpI hB hx hv
  obtain ⟨t', ht', hT'⟩ := h.vjpI hB' hx' hv'
  exact ⟨t, t', _, _, ht, hT, ht', hT', fun b b' hb hb' => by rw [hb, hb']⟩

theorem C16_vjp_weight (h : N.Ok st) (hp : 0 < p) (hB : 0 < B) (hx : IsBatch x B s n X) (hB' : 0 < B') (hx' : IsBatch x' B' s n X')
    {v v' : Tensor ℝ} {V V'} (hv : IsVec v B k V) (hv' : IsVec v' B' k V') :
    ∃ t t' T T', Returns (N.mod.vjp x none v .weight) st (some t) ∧ IsVec t B p T ∧
      Returns (N.mod.vjp x' none v' .weight) st (some t') ∧ IsVec t' B' p T' ∧ ∀ b b', X b = X' b' → V b = V' b' → T b = T' b' := by
  obtain ⟨t, ht, hT⟩ := (h.vjpW hB hx hv).1 hp
  obtain ⟨t', ht', hT'⟩ := (h.vjpW hB' hx' hv').1 hp
  exact ⟨t, t', _, _, ht, hT, ht', hT', fun b b' hb hb' => by rw [hb, hb']⟩

/-- C16, mjp -/
theorem C16_mjp_input (h : N.Ok st) (hB : 0 < B) (hx : IsBatch x B s n X) (hB' : 0 < B') (hx' : IsBatch x' B' s n X')
    {r : Nat} (hr : 0 < r) {A A' : Tensor ℝ} {Z Z'} (hA : IsMat A B r k Z) (hA' : IsMat A' B' r k Z') :
    ∃ t t' T T', Returns (N.mod.mjp x none (some A) .input) st (some t) ∧ IsMat t B r n T ∧
      Returns (N.mod.mjp x' none (some A') .input) st (some t') ∧ IsMat t' B' r n T' ∧ ∀ b b', X b = X' b' → Z b = Z' b' → T b = T' b' := by
  obtain ⟨t, ht, hT⟩ := h.mjpI hB hx hr hA
  obtain ⟨t', ht', hT'⟩ := h.mjpI hB' hx' hr hA'
  exact ⟨t, t', _, _, ht, hT, ht', hT', fun b b' hb hb' => by rw [hb, hb']⟩

theorem C16_mjp_weight (h : N.Ok st) (hp : 0 < p) (hB : 0 < B) (hx : IsBatch x B s n X) (hB' : 0 < B') (hx' : IsBatch x' B' s n X')
    {r : Nat} (hr : 0 < r) {A A' : Tensor ℝ} {Z Z'} (hA : IsMat A B r k Z) (hA' : IsMat A' B' r k Z') :
    ∃ t t' T T', Returns (N.mod.mjp x none (some A) .weight) st (some t) ∧ IsMat t B r p T ∧
      Returns (N.mod.mjp x' none (some A') .weight) st (some t') ∧ IsMat t' B' r p T' ∧ ∀ b b', X b = X' b' → Z b = Z' b' → T b = T' b' := by
  obtain ⟨t, ht, hT⟩ := (h.mjpW hB hx hr hA).1 hp
  obtain ⟨t', ht', hT'⟩ := (h.mjpW hB' hx' hr hA').1 hp
  exact ⟨t, t', _, _, ht, hT, ht', hT', fun b b' hb hb' => by rw [hb, hb']⟩

/-- C16, jvp -/
theorem C16_jvp_input (hf : N.FwdI) (h : N.Ok st) (hB : 0 < B) (hx : IsBatch x B s n X) (hB' : 0 < B') (hx' : IsBatch x' B' s n X')
    {v v' : Tensor ℝ} {V V'} (hv : IsVec v B n V) (hv' : IsVec v' B' n V') :
    ∃ t t' T T', Returns (N.mod.jvp x none v .input) st (some t) ∧ IsVec t B k T ∧
      Returns (N.mod.jvp x' none v' .input) st (some t') ∧ IsVec t' B' k T' ∧ ∀ b b', X b = X' b' → V b = V' b' → T b = T' b' := by
  obtain ⟨t, ht, hT⟩ := h.jvpI hf hB hx hv
  obtain ⟨t', ht', hT'⟩ := h.jvpI hf hB' hx' hv'
  exact ⟨t, t', _, _, ht, hT, ht', hT', fun b b' hb hb' => by rw [hb, hb']⟩

theorem C16_jvp_weight (hf : N.FwdI) (hw : N.FwdW) (h : N.Ok st) (hp : 0 < p) (hB : 0 < B) (hx : IsBatch x B s n X) (hB' : 0 < B')
    (hx' : IsBatch x' B' s n X') {v v' : Tensor ℝ} {V V'} (hv : IsVec v B p V) (hv' : IsVec v' B' p V') :
    ∃ t t' T T', Returns (N.mod.jvp x none v .weight) st (some t) ∧ IsVec t B k T ∧
      Returns (N.mod.jvp x' none v' .weight) st (some t') ∧ IsVec t' B' k T' ∧ ∀ b b', X b = X' b' → V b = V' b' → T b = T' b' := by
  obtain ⟨t, ht, hT⟩ := (h.jvpW hf hw hB hx hv).1 hp
  obtain ⟨t', ht', hT'⟩ := (h.jvpW hf hw hB' hx' hv').1 hp
  exact ⟨t, t', _, _, ht, hT, ht', hT', fun b b' hb hb' => by rw [hb, hb']⟩

/-- C16, jmp -/
theorem C16_jmp_input (hf : N.FwdI) (h : N.Ok st) (hB : 0 < B) (hx : IsBatch x B s n X) (hB' : 0 < B') (hx' : IsBatch x' B' s n X')
    {r : Nat} {A A' : Tensor ℝ} {Z Z'} (hA : IsMat A B n r Z) (hA' : IsMat A' B' n r Z') :
    ∃ t t' T T', Returns (N.mod.jmp x none (some A) .input) st (some t) ∧ IsMat t B k r T ∧
      Returns (N.mod.jmp x' none (some A') .input) st (some t') ∧ IsMat t' B' k r T' ∧ ∀ b b', X b = X' b' → Z b = Z' b' → T b = T' b' := by
  obtain ⟨t, ht, hT⟩ := h.jmpI hf hB hx hA
  obtain ⟨t', ht', hT'⟩ := h.jmpI hf hB' hx' hA'
  exact ⟨t, t', _, _, ht, hT, ht', hT', fun b b' hb hb' => by rw [hb, hb']⟩

theorem C16_jmp_weight (hf : N.FwdI) (hw : N.FwdW) (h : N.Ok st) (hp : 0 < p) (hB : 0 < B) (hx : IsBatch x B s n X) (hB' : 0 < B')
    (hx' : IsBatch x' B' s n X') {r : Nat} {A A' : Tensor ℝ} {Z Z'} (hA : IsMat A B p r Z) (hA' : IsMat A' B' p r Z') :
    ∃ t t' T T', Returns (N.mod.jmp x none (some A) .weight) st (some t) ∧ IsMat t B k r T ∧
      Returns (N.mod.jmp x' none (some A') .weight) st (some t') ∧ IsMat t' B' k r T' ∧ ∀ b b', X b = X' b' → Z b = Z' b' → T b = T' b' := by
  obtain ⟨t, ht, hT⟩ := (h.jmpW hf hw hB hx hA).1 hp
  obtain ⟨t', ht', hT'⟩ := (h.jmpW hf hw hB' hx' hA').1 hp
  exact ⟨t, t', _, _, ht, hT, ht', hT', fun b b' hb hb' => by rw [hb, hb']⟩

/-- C16, jTmjp wrt input -/
theorem C16_jTmjp_input (h : N.Ok st) (hB : 0 < B) (hx : IsBatch x B s n X) (hB' : 0 < B') (hx' : IsBatch x' B' s n X')
    (fd td : Bool) {A A' : Tensor ℝ} {Z Z'} (hA : MetricArg fd A B k Z) (hA' : MetricArg fd A' B' k Z') :
    ∃ t t' T T', Returns (N.mod.jTmjp x none (some A) .input fd td false) st (.tensor t) ∧ MetricOut td t B n T ∧
      Returns (N.mod.jTmjp x' none (some A') .input fd td false) st (.tensor t') ∧ MetricOut td t' B' n T' ∧
      ∀ b b', X b = X' b' → Z b = Z' b' → T b = T' b' := by
  obtain ⟨t, ht, hT⟩ := h.jTI hB hx fd td hA
  obtain ⟨t', ht', hT'⟩ := h.jTI hB' hx' fd td hA'
  exact ⟨t, t', _, _, ht, hT, ht', hT', fun b b' hb hb' => by rw [hb, hb']⟩

/-- C16, jTmjp wrt weight -/
theorem C16_jTmjp_weight_diag (h : N.Ok st) (hp : 0 < p) (hB : 0 < B) (hx : IsBatch x B s n X) (hB' : 0 < B') (hx' : IsBatch x' B' s n X')
    (fd : Bool) {A A' : Tensor ℝ} {Z Z'} (hA : MetricArg fd A B k Z) (hA' : MetricArg fd A' B' k Z') :
    ∃ t t' T T', Returns (N.mod.jTmjp x none (some A) .weight fd true false) st (.tensor t) ∧ IsVec t B p T ∧
      Returns (N.mod.jTmjp x' none (some A') .weight fd true false) st (.tensor t') ∧ IsVec t' B' p T' ∧
      ∀ b b', X b = X' b' → Z b = Z' b' → T b = T' b' := by
  obtain ⟨t, ht, hT⟩ := (h.jTWd hB hx fd hA).1 hp
  obtain ⟨t', ht', hT'⟩ := (h.jTWd hB' hx' fd hA').1 hp
  exact ⟨t, t', _, _, ht, hT, ht', hT', fun b b' hb hb' => by rw [hb, hb']⟩

theorem C16_jTmjp_weight_blocks (h : N.Ok st) (hp : 0 < p) (hB : 0 < B) (hx : IsBatch x B s n X) (hB' : 0 < B') (hx' : IsBatch x' B' s n X')
    (fd : Bool) {A A' : Tensor ℝ} {Z Z'} (hA : MetricArg fd A B k Z) (hA' : MetricArg fd A' B' k Z') :
    ∃ v v' T T', Returns (N.mod.jTmjp x none (some A) .weight fd false false) st v ∧ N.Blocks v B T ∧
      Returns (N.mod.jTmjp x' none (some A') .weight fd false false) st v' ∧ N.Blocks v' B' T' ∧
      ∀ b b', X b = X' b' → Z b = Z' b' → T b = T' b' := by
  obtain ⟨t, ht, hT⟩ := (h.jTWf hB hx fd hA).1 hp
  obtain ⟨t', ht', hT'⟩ := (h.jTWf hB' hx' fd hA').1 hp
  exact ⟨t, t', _, _, ht, hT, ht', hT', fun b b' hb hb' => by rw [hb, hb']⟩

/-- C16, jmjTp -/
theorem C16_jmjTp_input (hf : N.FwdI) (h : N.Ok st) (hB : 0 < B) (hx : IsBatch x B s n X) (hB' : 0 < B') (hx' : IsBatch x' B' s n X')
    (fd td : Bool) {A A' : Tensor ℝ} {Z Z'} (hA : MetricArg fd A B n Z) (hA' : MetricArg fd A' B' n Z') :
    ∃ t t' T T', Returns (N.mod.jmjTp x none (.tensor A) .input fd td false) st (some t) ∧ MetricOut td t B k T ∧
      Returns (N.mod.jmjTp x' none (.tensor A') .input fd td false) st (some t') ∧ MetricOut td t' B' k T' ∧
      ∀ b b', X b = X' b' → Z b = Z' b' → T b = T' b' := by
  obtain ⟨t, ht, hT⟩ := h.jmjI hf hB hx fd td hA
  obtain ⟨t', ht', hT'⟩ := h.jmjI hf hB' hx' fd td hA'
  exact ⟨t, t', _, _, ht, hT, ht', hT', fun b b' hb hb' => by rw [hb, hb']⟩

theorem C16_jmjTp_weight (hf : N.PushW) (h : N.Ok st) (hp : 0 < p) (hB : 0 < B) (hx : IsBatch x B s n X) (hB' : 0 < B') (hx' : IsBatch x' B' s n X')
    (fd td : Bool) {A A' : Tensor ℝ} {Z Z'} (hA : MetricArg fd A B p Z) (hA' : MetricArg fd A' B' p Z') :
    ∃ t t' T T', Returns (N.mod.jmjTp x none (.tensor A) .weight fd td false) st (some t) ∧ MetricOut td t B k T ∧
      Returns (N.mod.jmjTp x' none (.tensor A') .weight fd td false) st (some t') ∧ MetricOut td t' B' k T' ∧
      ∀ b b', X b = X' b' → Z b = Z' b' → T b = T' b' := by
  obtain ⟨t, ht, hT⟩ := h.jmjW hf hp hB hx fd td (h.g.arg_of_metric hA)
  obtain ⟨t', ht', hT'⟩ := h.jmjW hf hp hB' hx' fd td (h.g.arg_of_metric hA')
  exact ⟨t, t', _, _, ht, hT, ht', hT', fun b b' hb hb' => by rw [hb, hb']⟩

/-- C16, the diagonal approximation -/
theorem C16_diag_backprop (h : N.Ok st) (hB : 0 < B) (hx : IsBatch x B s n X) (hB' : 0 < B') (hx' : IsBatch x' B' s n X')
    {A A' : Tensor ℝ} {d d'} (hA : IsVec A B k d) (hA' : IsVec A' B' k d') :
    ∃ t t' T T', Returns (N.mod.jTmjp x none (some A) .input true true true) st (.tensor t) ∧ IsVec t B n T ∧
      Returns (N.mod.jTmjp x' none (some A') .input true true true) st (.tensor t') ∧ IsVec t' B' n T' ∧
      ∀ b b', X b = X' b' → d b = d' b' → T b = T' b' := by
  obtain ⟨t, ht, hT⟩ := h.jTIdb hB hx hA
  obtain ⟨t', ht', hT'⟩ := h.jTIdb hB' hx' hA'
  exact ⟨t, t', _, _, ht, hT, ht', hT', fun b b' hb hb' => by rw [hb, hb']⟩

/-- the batch of two of the example, and a batch holding only its second sample -/
example : ∃ t t' Y Y', Returns (exNet.mod.forward exInput) exStore t ∧ IsBatch t 2 [1] 1 Y ∧
    Returns (exNet.mod.forward (ofSample [2] ![2, 3])) exStore t' ∧ IsBatch t' 1 [1] 1 Y' ∧ Y 1 = Y' 0 := by
  have hx' : IsBatch (ofSample [2] ![2, 3]) 1 [2] 2 (fun _ => (![2, 3] : Fin 2 → ℝ)) := by
    refine ⟨rfl, fun b i => ?_⟩
    fin_cases b; fin_cases i <;> simp [ofSample]
  obtain ⟨t, t', Y, Y', h1, h2, h3, h4, h5⟩ := C16_forward exNet_ok two_pos exInput_isBatch one_pos hx'
  refine ⟨t, t', Y, Y', h1, h2, h3, h4, h5 1 0 ?_⟩
  funext i
  fin_cases i <;> norm_num

end Props
end NNJ
