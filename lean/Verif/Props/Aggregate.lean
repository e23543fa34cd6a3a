import Verif.Props.Likelihood

/-!
# C26: "sum" and "average" against the calls on the single samples

Each theorem compares three calls of one method: on each sample alone, on the batch with
`aggregate_batch="sum"` and on the batch with `aggregate_batch="average"`.
-/

namespace NNJ
namespace Props
open Matrix LogLik

variable {s s' : List Nat} {n k p : Nat} {N : Net s n s' k p} {st : Store ℝ}
variable {B : Nat} {X : Fin B → Fin n → ℝ} {x target : Tensor ℝ} {T : Fin B → Fin k → ℝ}

theorem SumsScalar.of {one : Fin B → Prog ℝ (Option (Tensor ℝ))} {sum avg : Prog ℝ (Option (Tensor ℝ))} {L : Fin B → ℝ}
    (h1 : ∀ b, ReturnsScalar (one b) st (aggFactor .sum 1 * ∑ _c : Fin 1, L b))
    (h2 : ReturnsScalar sum st (aggFactor .sum B * ∑ b, L b)) (h3 : ReturnsScalar avg st (aggFactor .average B * ∑ b, L b)) :
    SumsScalar one sum avg st := by
  refine ⟨L, fun b => ?_, ?_, ?_⟩
  · simpa [aggFactor] using h1 b
  · simpa [aggFactor] using h2
  · refine (congrArg _ ?_).mp h3
    simp [aggFactor, div_eq_inv_mul]

theorem SumsTensor.of1 {one : Fin B → Prog ℝ (PyVal ℝ)} {sum avg : Prog ℝ (PyVal ℝ)} {m : Nat} {G : Fin B → Fin m → ℝ}
    (h1 : ∀ b, ∃ g, Returns (one b) st (.tensor g) ∧ IsVec1 g m fun i => aggFactor .sum 1 * ∑ _c : Fin 1, G b i)
    (h2 : ∃ g, Returns sum st (.tensor g) ∧ IsVec1 g m fun i => aggFactor .sum B * ∑ b, G b i)
    (h3 : ∃ g, Returns avg st (.tensor g) ∧ IsVec1 g m fun i => aggFactor .average B * ∑ b, G b i) : SumsTensor one sum avg st := by
  choose r hr hR using h1
  obtain ⟨S, hs, hS⟩ := h2
  obtain ⟨A, ha, hA⟩ := h3
  refine ⟨[m], r, S, A, fun b => ⟨hr b, (hR b).1⟩, hs, hS.1, ha, hA.1, fun i hi => ?_⟩
  have hi : i < m := by simpa [size] using hi
  have e : ∀ b, (r b).data i = G b ⟨i, hi⟩ := fun b => by simpa [aggFactor] using (hR b).2 ⟨i, hi⟩
  have e2 := hS.2 ⟨i, hi⟩
  have e3 := hA.2 ⟨i, hi⟩
  simp only [aggFactor, if_true, reduceCtorEq, if_false, one_mul] at e2 e3
  rw [e2, e3]
  simp only [e]
  refine ⟨trivial, ?_⟩
  rw [one_div, div_eq_inv_mul]

theorem isMat1_at {t : Tensor ℝ} {m : Nat} {M : Matrix (Fin m) (Fin m) ℝ} (h : IsMat1 t m m M) (i : Nat) (hi : i < m * m) (hm : 0 < m) :
    t.data i = M ⟨i / m, Nat.div_lt_of_lt_mul hi⟩ ⟨i % m, Nat.mod_lt _ hm⟩ := by
  rw [← h.2]
  simp only [Tensor.get, h.1, ravel, size]
  congr 1
  simp [Nat.div_add_mod']

theorem SumsTensor.of2 {one : Fin B → Prog ℝ (PyVal ℝ)} {sum avg : Prog ℝ (PyVal ℝ)} {m : Nat} {G : Fin B → Matrix (Fin m) (Fin m) ℝ}
    (h1 : ∀ b, ∃ g, Returns (one b) st (.tensor g) ∧ IsMat1 g m m fun i j => aggFactor .sum 1 * ∑ _c : Fin 1, G b i j)
    (h2 : ∃ g, Returns sum st (.tensor g) ∧ IsMat1 g m m fun i j => aggFactor .sum B * ∑ b, G b i j)
    (h3 : ∃ g, Returns avg st (.tensor g) ∧ IsMat1 g m m fun i j => aggFactor .average B * ∑ b, G b i j) : SumsTensor one sum avg st := by
  choose r hr hR using h1
  obtain ⟨S, hs, hS⟩ := h2
  obtain ⟨A, ha, hA⟩ := h3
  refine ⟨[m, m], r, S, A, fun b => ⟨hr b, (hR b).1⟩, hs, hS.1, ha, hA.1, fun i hi => ?_⟩
  have hi : i < m * m := by simpa [size] using hi
  have hm : 0 < m := by rcases Nat.eq_zero_or_pos m with rfl | h <;> omega
  have e : ∀ b, (r b).data i = G b ⟨i / m, Nat.div_lt_of_lt_mul hi⟩ ⟨i % m, Nat.mod_lt _ hm⟩ := fun b => by
    simpa [aggFactor] using isMat1_at (hR b) i hi hm
  have e2 := isMat1_at hS i hi hm
  have e3 := isMat1_at hA i hi hm
  simp only [aggFactor, if_true, reduceCtorEq, if_false, one_mul] at e2 e3
  rw [e2, e3]
  simp only [e]
  refine ⟨trivial, ?_⟩
  rw [one_div, div_eq_inv_mul]

/-- C26: `forward` of the three likelihoods. -/
theorem C26_forward (h : N.Ok st) (hh : st.hooks N.mod.id = []) (hB : 0 < B) (hx : IsBatch x B s n X) (ht : IsBatch target B s' k T)
    (shape : ShapeArg) (bp : BackpropArg) :
    SumsScalar (fun b => gaussianForward ⟨.sum, shape, bp⟩ N.mod (ofSample s (X b)) (some (ofSample s' (T b))))
      (gaussianForward ⟨.sum, shape, bp⟩ N.mod x (some target)) (gaussianForward ⟨.average, shape, bp⟩ N.mod x (some target)) st ∧
    SumsScalar (fun b => binaryForward ⟨.sum, shape, bp⟩ N.mod (ofSample s (X b)) (some (ofSample s' (T b))))
      (binaryForward ⟨.sum, shape, bp⟩ N.mod x (some target)) (binaryForward ⟨.average, shape, bp⟩ N.mod x (some target)) st ∧
    (s' ≠ [] → SumsScalar (fun b => bernoulliForward ⟨.sum, shape, bp⟩ N.mod (ofSample s (X b)) (some (ofSample s' (T b))))
      (bernoulliForward ⟨.sum, shape, bp⟩ N.mod x (some target)) (bernoulliForward ⟨.average, shape, bp⟩ N.mod x (some target)) st) := by
  refine ⟨?_, ?_, fun hs => ?_⟩
  · exact SumsScalar.of (fun b => gaussianForward_scalar h hh Nat.one_pos (ofSample_isBatch (X b)) (ofSample_isBatch (T b)) (.inl rfl))
      (gaussianForward_scalar h hh hB hx ht (.inl rfl)) (gaussianForward_scalar h hh hB hx ht (.inr rfl))
  · exact SumsScalar.of (fun b => binaryForward_scalar h hh Nat.one_pos (ofSample_isBatch (X b)) (ofSample_isBatch (T b)) (.inl rfl))
      (binaryForward_scalar h hh hB hx ht (.inl rfl)) (binaryForward_scalar h hh hB hx ht (.inr rfl))
  · have hc := List.getLast?_eq_some_getLast hs
    exact SumsScalar.of (fun b => bernoulliForward_scalar h hh Nat.one_pos (ofSample_isBatch (X b)) (ofSample_isBatch (T b)) hc (.inl rfl))
      (bernoulliForward_scalar h hh hB hx ht hc (.inl rfl)) (bernoulliForward_scalar h hh hB hx ht hc (.inr rfl))

theorem grad_sums {one : Fin B → Wrt → Prog ℝ (PyVal ℝ)} {sum avg : Wrt → Prog ℝ (PyVal ℝ)} {U : Fin B → Fin k → ℝ}
    (h1 : ∀ b, GradOf (B := 1) (one b) N st (fun _ => X b) .sum fun _ => U b) (h2 : GradOf sum N st X .sum U) (h3 : GradOf avg N st X .average U)
    (wrt : Wrt) (hw : wrt = .input ∨ wrt = .weight ∧ 0 < p) : SumsTensor (fun b => one b wrt) (sum wrt) (avg wrt) st := by
  rcases hw with rfl | ⟨rfl, hp⟩
  · exact SumsTensor.of1 (fun b => (h1 b).1) h2.1 h3.1
  · exact SumsTensor.of1 (fun b => (h1 b).2.1 hp) (h2.2.1 hp) (h3.2.1 hp)

/-- C26: `gradient` of the three likelihoods, in the inputs, and in the weights of a model that has weights. -/
theorem C26_gradient (h : N.Ok st) (hh : st.hooks N.mod.id = []) (hB : 0 < B) (hx : IsBatch x B s n X) (ht : IsBatch target B s' k T)
    (shape : ShapeArg) (bp : BackpropArg) (wrt : Wrt) (hw : wrt = .input ∨ wrt = .weight ∧ 0 < p) :
    SumsTensor (fun b => gaussianGradient ⟨.sum, shape, bp⟩ N.mod (ofSample s (X b)) (some (ofSample s' (T b))) wrt)
      (gaussianGradient ⟨.sum, shape, bp⟩ N.mod x (some target) wrt) (gaussianGradient ⟨.average, shape, bp⟩ N.mod x (some target) wrt) st ∧
    SumsTensor (fun b => binaryGradient ⟨.sum, shape, bp⟩ N.mod (ofSample s (X b)) (some (ofSample s' (T b))) wrt)
      (binaryGradient ⟨.sum, shape, bp⟩ N.mod x (some target) wrt) (binaryGradient ⟨.average, shape, bp⟩ N.mod x (some target) wrt) st ∧
    (s' ≠ [] → SumsTensor (fun b => bernoulliGradient ⟨.sum, shape, bp⟩ N.mod (ofSample s (X b)) (some (ofSample s' (T b))) wrt)
      (bernoulliGradient ⟨.sum, shape, bp⟩ N.mod x (some target) wrt) (bernoulliGradient ⟨.average, shape, bp⟩ N.mod x (some target) wrt) st) := by
  refine ⟨?_, ?_, fun hs => ?_⟩
  · exact grad_sums (fun b => gaussianGradient_run h hh Nat.one_pos (ofSample_isBatch (X b)) (ofSample_isBatch (T b)) (cfg := ⟨.sum, shape, bp⟩) (.inl rfl))
      (gaussianGradient_run h hh hB hx ht (cfg := ⟨.sum, shape, bp⟩) (.inl rfl)) (gaussianGradient_run h hh hB hx ht (cfg := ⟨.average, shape, bp⟩) (.inr rfl)) wrt hw
  · exact grad_sums (fun b => binaryGradient_run h hh Nat.one_pos (ofSample_isBatch (X b)) (ofSample_isBatch (T b)) (cfg := ⟨.sum, shape, bp⟩) (.inl rfl))
      (binaryGradient_run h hh hB hx ht (cfg := ⟨.sum, shape, bp⟩) (.inl rfl)) (binaryGradient_run h hh hB hx ht (cfg := ⟨.average, shape, bp⟩) (.inr rfl)) wrt hw
  · have hc := List.getLast?_eq_some_getLast hs
    exact grad_sums (fun b => bernoulliGradient_run h hh Nat.one_pos (ofSample_isBatch (X b)) (ofSample_isBatch (T b)) hc (cfg := ⟨.sum, shape, bp⟩) (.inl rfl))
      (bernoulliGradient_run h hh hB hx ht hc (cfg := ⟨.sum, shape, bp⟩) (.inl rfl))
      (bernoulliGradient_run h hh hB hx ht hc (cfg := ⟨.average, shape, bp⟩) (.inr rfl)) wrt hw

theorem ggn_sums {one : Fin B → Wrt → Prog ℝ (PyVal ℝ)} {sum avg : Wrt → Prog ℝ (PyVal ℝ)} {H : Fin B → Matrix (Fin k) (Fin k) ℝ} {shape : ShapeArg}
    (h1 : ∀ b, GgnOf (B := 1) (one b) N st (fun _ => X b) .sum shape fun _ => H b) (h2 : GgnOf sum N st X .sum shape H)
    (h3 : GgnOf avg N st X .average shape H) (wrt : Wrt)
    (hw : shape = .diag ∧ (wrt = .input ∨ wrt = .weight ∧ 0 < p) ∨ shape = .full ∧ (wrt = .input ∨ wrt = .weight ∧ 0 < p ∧ ¬ N.Container)) :
    SumsTensor (fun b => one b wrt) (sum wrt) (avg wrt) st := by
  rcases hw with ⟨hs, rfl | ⟨rfl, hp⟩⟩ | ⟨hs, rfl | ⟨rfl, hp, hl⟩⟩
  · exact SumsTensor.of1 (G := fun b i => ((N.J st (X b))ᵀ * H b * N.J st (X b)) i i) (fun b => (h1 b).inputDiag hs) (h2.inputDiag hs) (h3.inputDiag hs)
  · exact SumsTensor.of1 (G := fun b i => ((N.JW st (X b))ᵀ * H b * N.JW st (X b)) i i) (fun b => (h1 b).weightDiag hs hp) (h2.weightDiag hs hp) (h3.weightDiag hs hp)
  · exact SumsTensor.of2 (G := fun b => (N.J st (X b))ᵀ * H b * N.J st (X b)) (fun b => (h1 b).inputFull hs) (h2.inputFull hs) (h3.inputFull hs)
  · exact SumsTensor.of2 (G := fun b => (N.JW st (X b))ᵀ * H b * N.JW st (X b)) (fun b => (h1 b).weightFull hs hp hl) (h2.weightFull hs hp hl)
      (h3.weightFull hs hp hl)

/-- C26: `ggn` with exact propagation, wherever it returns a tensor (C25). -/
theorem C26_ggn (h : N.Ok st) (hh : st.hooks N.mod.id = []) (hB : 0 < B) (hx : IsBatch x B s n X) (shape : ShapeArg) (wrt : Wrt)
    (hw : shape = .diag ∧ (wrt = .input ∨ wrt = .weight ∧ 0 < p) ∨ shape = .full ∧ (wrt = .input ∨ wrt = .weight ∧ 0 < p ∧ ¬ N.Container)) :
    SumsTensor (fun b => gaussianGgn ⟨.sum, shape, .exact⟩ N.mod (ofSample s (X b)) wrt)
      (gaussianGgn ⟨.sum, shape, .exact⟩ N.mod x wrt) (gaussianGgn ⟨.average, shape, .exact⟩ N.mod x wrt) st ∧
    SumsTensor (fun b => binaryGgn ⟨.sum, shape, .exact⟩ N.mod (ofSample s (X b)) wrt)
      (binaryGgn ⟨.sum, shape, .exact⟩ N.mod x wrt) (binaryGgn ⟨.average, shape, .exact⟩ N.mod x wrt) st := by
  constructor
  · exact ggn_sums (fun b => gaussianGgn_run h hh Nat.one_pos (ofSample_isBatch (X b)) (cfg := ⟨.sum, shape, .exact⟩) (.inl rfl) rfl)
      (gaussianGgn_run h hh hB hx (cfg := ⟨.sum, shape, .exact⟩) (.inl rfl) rfl)
      (gaussianGgn_run h hh hB hx (cfg := ⟨.average, shape, .exact⟩) (.inr rfl) rfl) wrt hw
  · exact ggn_sums (fun b => binaryGgn_run h hh Nat.one_pos (ofSample_isBatch (X b)) (cfg := ⟨.sum, shape, .exact⟩) (.inl rfl) rfl)
      (binaryGgn_run h hh hB hx (cfg := ⟨.sum, shape, .exact⟩) (.inl rfl) rfl)
      (binaryGgn_run h hh hB hx (cfg := ⟨.average, shape, .exact⟩) (.inr rfl) rfl) wrt hw

/-- C26: as `C26_ggn` for LogBernoulli, whose outputs must be one class vector. -/
theorem C26_ggn_bernoulli {c : Nat} {N : Net s n [c] c p} (h : N.Ok st) (hh : st.hooks N.mod.id = []) (hB : 0 < B) (hx : IsBatch x B s n X)
    (shape : ShapeArg) (wrt : Wrt)
    (hw : shape = .diag ∧ (wrt = .input ∨ wrt = .weight ∧ 0 < p) ∨ shape = .full ∧ (wrt = .input ∨ wrt = .weight ∧ 0 < p ∧ ¬ N.Container)) :
    SumsTensor (fun b => bernoulliGgn ⟨.sum, shape, .exact⟩ N.mod (ofSample s (X b)) wrt)
      (bernoulliGgn ⟨.sum, shape, .exact⟩ N.mod x wrt) (bernoulliGgn ⟨.average, shape, .exact⟩ N.mod x wrt) st :=
  ggn_sums (fun b => bernoulliGgn_run h hh Nat.one_pos (ofSample_isBatch (X b)) (cfg := ⟨.sum, shape, .exact⟩) (.inl rfl) rfl)
    (bernoulliGgn_run h hh hB hx (cfg := ⟨.sum, shape, .exact⟩) (.inl rfl) rfl)
    (bernoulliGgn_run h hh hB hx (cfg := ⟨.average, shape, .exact⟩) (.inr rfl) rfl) wrt hw

/-! the hypotheses can be met -/

example : SumsScalar (fun b : Fin 2 => gaussianForward ⟨.sum, .diag, .exact⟩ exNet.mod (ofSample [2] fun i : Fin 2 => (2 * b + i : ℝ)) (some (ofSample [1] fun _ : Fin 1 => (b : ℝ))))
    (gaussianForward ⟨.sum, .diag, .exact⟩ exNet.mod exInput (some exTarget)) (gaussianForward ⟨.average, .diag, .exact⟩ exNet.mod exInput (some exTarget)) exStore :=
  (C26_forward exNet_ok exNet_hooks (by norm_num) exInput_isBatch exTarget_isBatch .diag .exact).1

example : SumsTensor (fun b : Fin 2 => bernoulliGradient ⟨.sum, .diag, .exact⟩ clsNet.mod (ofSample [2] fun i : Fin 2 => (2 * b + i : ℝ))
      (some (ofSample [3] fun i : Fin 3 => if i.val = 0 then 1 / 2 else if i.val = 1 then 1 / 3 else 1 / 6)) .weight)
    (bernoulliGradient ⟨.sum, .diag, .exact⟩ clsNet.mod exInput (some clsTarget) .weight)
    (bernoulliGradient ⟨.average, .diag, .exact⟩ clsNet.mod exInput (some clsTarget) .weight) exStore :=
  (C26_gradient clsNet_ok clsNet_hooks (by norm_num) exInput_isBatch clsTarget_isBatch .diag .exact .weight (.inr ⟨rfl, by norm_num⟩)).2.2 (by simp)

example : SumsTensor (fun b : Fin 2 => bernoulliGgn ⟨.sum, .full, .exact⟩ clsNet.mod (ofSample [2] fun i : Fin 2 => (2 * b + i : ℝ)) .input)
    (bernoulliGgn ⟨.sum, .full, .exact⟩ clsNet.mod exInput .input) (bernoulliGgn ⟨.average, .full, .exact⟩ clsNet.mod exInput .input) exStore :=
  C26_ggn_bernoulli clsNet_ok clsNet_hooks (by norm_num) exInput_isBatch .full .input (.inr ⟨rfl, .inl rfl⟩)

end Props
end NNJ
