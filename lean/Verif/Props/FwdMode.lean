import Verif.Proofs.FwdMode
import Verif.Spec.Example

/-!
# C69: forward mode either multiplies by the derivative or raises, and for which networks

The pooling layer reshapes the columns of the matrix it is given like its inputs (nnj/maxpool2d.py:97), so `jmp` through it needs as many columns as it has
inputs.
-/

namespace NNJ.Props
open NNJ Matrix Tensor

variable {s s' : List Nat} {n k p : Nat} {N : Net s n s' k p} {st : Store ℝ}
variable {B : Nat} {X : Fin B → Fin n → ℝ} {x : Tensor ℝ}

/-- With respect to the input: `jvp` returns exactly if there is no Conv2d, Upsample or MaxPool2d inside, `jmp` with `r` columns returns exactly if there is no
Conv2d or Upsample and every MaxPool2d has `r` inputs.  If they return, they multiply by the derivative of `forward`. -/
theorem C69_input (h : N.Loose st) (hB : 0 < B) (hx : IsBatch x B s n X) :
    ∃ J : Fin B → Matrix (Fin k) (Fin n) ℝ,
      (∀ b, N.sem.smooth (N.w st) (X b) → HasFDerivAt (forwardMap N.mod st s) (linMap (J b)) (X b)) ∧
      (∀ v V, IsVec v B n V →
        ((N.Through fun _ => False) → ∃ t, Returns (N.mod.jvp x none v .input) st (some t) ∧ IsVec t B k (fun b => J b *ᵥ V b)) ∧
        (¬ (N.Through fun _ => False) → NoReturn (N.mod.jvp x none v .input) st)) ∧
      ∀ r v V, IsMat v B n r V →
        ((N.Through fun m => m = r) → ∃ t, Returns (N.mod.jmp x none (some v) .input) st (some t) ∧ IsMat t B k r (fun b => J b * V b)) ∧
        (¬ (N.Through fun m => m = r) → NoReturn (N.mod.jmp x none (some v) .input) st) := by
  refine ⟨fun b => N.sem.J (N.w st) (X b), fun b hs => ?_, fun v V hv => ?_, fun r v V hv => ?_⟩
  · rw [h.forwardMap_eq]
    exact (N.diff _ _ hs).input
  · have := N.fm.jvpI h hB hx hv .none
    refine ⟨fun ht => ?_, this.2⟩
    obtain ⟨o, st', e, ho, -⟩ := this.1 ht
    cases o with
    | none => exact ho.elim
    | some t => exact ⟨t, by rw [Returns, e], ho⟩
  · have := N.fm.jmpI h hB hx hv .none
    refine ⟨fun ht => ?_, this.2⟩
    obtain ⟨o, st', e, ho, -⟩ := this.1 ht
    cases o with
    | none => exact ho.elim
    | some t => exact ⟨t, by rw [Returns, e], ho⟩

/-- With respect to the weights: the products return exactly if there is no Conv2d, every SkipConnection has parameters, and what comes after a layer with
parameters lets products with respect to the input through.  If they return, the result is `None` for a network without parameters, and otherwise the product
with a matrix `J` such that moving the parameters in a direction `D` changes the output by `J` times `D` in weight coordinates. -/
theorem C69_weight (h : N.Loose st) (hB : 0 < B) (hx : IsBatch x B s n X) :
    ∃ J : Fin B → Matrix (Fin k) (Fin p) ℝ,
      (∀ b, N.sem.smooth (N.w st) (X b) → ∀ D,
        HasDerivAt (fun ε => forwardMap (k := k) N.mod (st.moved D ε) s (X b)) (J b *ᵥ N.w (st.direction D)) 0) ∧
      (∀ v V, IsVec v B p V →
        ((N.ThroughW fun _ => False) → ∃ o, Returns (N.mod.jvp x none v .weight) st o ∧ (p = 0 → o = none) ∧
          (0 < p → ∃ t, o = some t ∧ IsVec t B k fun b => J b *ᵥ V b)) ∧
        (¬ (N.ThroughW fun _ => False) → NoReturn (N.mod.jvp x none v .weight) st)) ∧
      ∀ r v V, IsMat v B p r V →
        ((N.ThroughW fun m => m = r) → ∃ o, Returns (N.mod.jmp x none (some v) .weight) st o ∧ (p = 0 → o = none) ∧
          (0 < p → ∃ t, o = some t ∧ IsMat t B k r fun b => J b * V b)) ∧
        (¬ (N.ThroughW fun m => m = r) → NoReturn (N.mod.jmp x none (some v) .weight) st) := by
  refine ⟨fun b => N.sem.JW (N.w st) (X b), fun b hs D => h.deriv_moved D (X b) hs, fun v V hv => ?_, fun r v V hv => ?_⟩
  · have := N.fm.jvpW h hB hx hv (val := none) (by simp)
    refine ⟨fun ht => ?_, this.2⟩
    obtain ⟨o, st', e, ho, -⟩ := this.1 ht
    refine ⟨o, by rw [Returns, e], fun hp => by simpa [OptW, hp] using ho, fun hp => ?_⟩
    have ho := Skip.optW_some hp ho
    cases o with
    | none => exact ho.elim
    | some t => exact ⟨t, rfl, ho⟩
  · have := N.fm.jmpW h hB hx hv (val := none) (by simp)
    refine ⟨fun ht => ?_, this.2⟩
    obtain ⟨o, st', e, ho, -⟩ := this.1 ht
    refine ⟨o, by rw [Returns, e], fun hp => by simpa [OptW, hp] using ho, fun hp => ?_⟩
    have ho := Skip.optW_some hp ho
    cases o with
    | none => exact ho.elim
    | some t => exact ⟨t, rfl, ho⟩

/-- With a MaxPool2d inside, `jmp` with respect to the input raises unless the matrix has as many columns as that layer has inputs; with two pooling layers of
different input sizes it raises for every matrix. -/
theorem C69_pools (h : N.Loose st) (hB : 0 < B) (hx : IsBatch x B s n X) :
    (∀ r v V, IsMat v B n r V → (∃ m ∈ N.pools, m ≠ r) → NoReturn (N.mod.jmp x none (some v) .input) st) ∧
    ((∃ m ∈ N.pools, ∃ m' ∈ N.pools, m ≠ m') → ∀ r v V, IsMat v B n r V → NoReturn (N.mod.jmp x none (some v) .input) st) := by
  have key : ∀ r v V, IsMat v B n r V → (∃ m ∈ N.pools, m ≠ r) → NoReturn (N.mod.jmp x none (some v) .input) st := by
    rintro r v V hv ⟨m, hm, hr⟩
    exact (N.fm.jmpI h hB hx hv .none).2 fun ht => hr (ht.pools m hm)
  refine ⟨key, ?_⟩
  rintro ⟨m, hm, m', hm', hne⟩ r v V hv
  by_cases e : m = r
  · exact key r v V hv ⟨m', hm', fun e' => hne (e.trans e'.symm)⟩
  · exact key r v V hv ⟨m, hm, e⟩

/-- The layer by itself, windows overlapping or not: `jmp` multiplies by the Jacobian if the matrix has as many columns as the layer has inputs, and raises
otherwise; `jvp` raises. -/
theorem C69_maxpool {a : Torch.PoolArgs} {c h w h2 w2 id : Nat} {X : Fin B → Fin (c * h * w) → ℝ} (hf : PoolSizes a h w h2 w2) (hc : 0 < c) (hB : 0 < B)
    (hx : IsBatch x B [c, h, w] (c * h * w) X) :
    ∃ jt J, Returns ((MaxPool2d.mod a id).jacobian x none .input) st (some jt) ∧ IsMat jt B (c * h2 * w2) (c * h * w) J ∧
      (∀ r A Z, IsMat A B (c * h * w) r Z →
        (r = c * h * w → ∃ t, Returns ((MaxPool2d.mod a id).jmp x none (some A) .input) st (some t) ∧ IsMat t B (c * h2 * w2) r fun b => J b * Z b) ∧
        (r ≠ c * h * w → NoReturn ((MaxPool2d.mod a id).jmp x none (some A) .input) st)) ∧
      ∀ v val, NoReturn ((MaxPool2d.mod a id).jvp x val v .input) st := by
  obtain ⟨o, s2, hr, hJ, -⟩ := MaxPool2d.jac_run (id := id) (s := st) hf hx
  cases o with
  | none => exact hJ.elim
  | some jt =>
    refine ⟨jt, _, by rw [Returns, hr], hJ, fun r A Z hA => ?_, fun v val => ⟨_, _, rfl⟩⟩
    have := MaxPool2d.jmp_out (id := id) (st := st) hf hc hB hx hA (val := none) (by simp)
    refine ⟨fun e => ?_, fun e => this.2 fun e' => e e'.symm⟩
    obtain ⟨o, st', e, ho, -⟩ := this.1 e.symm
    cases o with
    | none => exact ho.elim
    | some t => exact ⟨t, by rw [Returns, show (MaxPool2d.mod a id).jmp x none (some A) .input st = _ from e], ho⟩

/-! ### Example: `Sequential(Tanh(), MaxPool2d(2), Flatten(), Linear(2, 1))` on images of shape 2 x 2 x 3 -/

/-- the network expression -/
noncomputable def poolNet : Net [2, 2, 3] (2 * 2 * 3) [1] 1 (0 + 0 + 0 + 0 + (1 * 2 + 0)) :=
  .seq 0 (.snoc (.snoc (.snoc (.snoc (.nil [2, 2, 3] (2 * 2 * 3) rfl (by norm_num))
    (.act .tanh 1 [2, 2, 3] (2 * 2 * 3) rfl (by norm_num)))
    (.maxpool 2 exPool))
    (.flatten 3 [2, 1, 1] (2 * 1 * 1) rfl (by norm_num)))
    (.linear 4 0 none 2 1 (by norm_num) (by norm_num)))

/-- a state holding it: weights 1, no hooks -/
noncomputable def poolStore : Store ℝ := ⟨fun _ => ⟨[1, 2], fun _ => 1⟩, fun _ => none, fun _ => none, fun _ => []⟩

theorem poolNet_loose : poolNet.Loose poolStore :=
  ⟨by simp [poolNet, Net.Shapes, Chain.Shapes, poolStore], fun i q hq => by simp [poolStore] at hq⟩

/-- an image -/
noncomputable def poolX : Tensor ℝ := ⟨[1, 2, 2, 3], fun i => i⟩
theorem poolX_batch : IsBatch poolX 1 [2, 2, 3] (2 * 2 * 3) fun _ j => (j : ℝ) :=
  ⟨rfl, fun b j => by simp [poolX]⟩

/-- a matrix with 12 columns goes through, one with a single column does not, neither does a vector -/
example : (∃ t, Returns (poolNet.mod.jmp poolX none (some ⟨[1, 12, 12], fun _ => 1⟩) .input) poolStore (some t)) ∧
    NoReturn (poolNet.mod.jmp poolX none (some ⟨[1, 12, 1], fun _ => 1⟩) .input) poolStore ∧
    NoReturn (poolNet.mod.jvp poolX none ⟨[1, 12], fun _ => 1⟩ .input) poolStore := by
  obtain ⟨J, -, h1, h2⟩ := C69_input poolNet_loose Nat.one_pos poolX_batch
  refine ⟨?_, ?_, ?_⟩
  · obtain ⟨t, ht, -⟩ := (h2 12 ⟨[1, 12, 12], fun _ => 1⟩ (fun _ _ _ => 1) ⟨rfl, fun _ _ _ => rfl⟩).1 (by simp [poolNet, Net.Through, Chain.Through, exPool])
    exact ⟨t, ht⟩
  · exact (h2 1 ⟨[1, 12, 1], fun _ => 1⟩ (fun _ _ _ => 1) ⟨rfl, fun _ _ _ => rfl⟩).2 (by simp [poolNet, Net.Through, Chain.Through, exPool])
  · exact (h1 ⟨[1, 12], fun _ => 1⟩ (fun _ _ => 1) ⟨rfl, fun _ _ => rfl⟩).2 (by simp [poolNet, Net.Through, Chain.Through])

/-- with respect to the weights all go through: the pooling layer comes before the first parameter -/
example : (∃ t, Returns (poolNet.mod.jmp poolX none (some ⟨[1, 2, 1], fun _ => 1⟩) .weight) poolStore (some t)) ∧
    ∃ t, Returns (poolNet.mod.jvp poolX none ⟨[1, 2], fun _ => 1⟩ .weight) poolStore (some t) := by
  obtain ⟨J, -, h1, h2⟩ := C69_weight poolNet_loose Nat.one_pos poolX_batch
  constructor
  · obtain ⟨o, ht, -, h⟩ := (h2 1 ⟨[1, 2, 1], fun _ => 1⟩ (fun _ _ _ => 1) ⟨rfl, fun _ _ _ => rfl⟩).1 (by simp [poolNet, Net.ThroughW, Chain.ThroughW, Net.Through])
    obtain ⟨t, rfl, -⟩ := h (by norm_num)
    exact ⟨t, ht⟩
  · obtain ⟨o, ht, -, h⟩ := (h1 ⟨[1, 2], fun _ => 1⟩ (fun _ _ => 1) ⟨rfl, fun _ _ => rfl⟩).1 (by simp [poolNet, Net.ThroughW, Chain.ThroughW, Net.Through])
    obtain ⟨t, rfl, -⟩ := h (by norm_num)
    exact ⟨t, ht⟩

/-- a pooling of 2 x 1 x 1 to the same size -/
def unitPool : PoolDims where
  a := { kernel := (1, 1), stride := (1, 1) }
  c := 2
  h := 1
  w := 1
  h2 := 1
  w2 := 1
  hc := by norm_num
  fits := ⟨by constructor <;> decide, fun y hy z hz y' hy' z' hz' _ _ _ => by omega⟩

/-- after another pooling layer `jmp` cannot be called at all -/
example (v : Tensor ℝ) (r : Nat) (V) (hv : IsMat v 1 (2 * 2 * 3) r V) :
    NoReturn ((Net.seq 0 (.snoc (.snoc (.nil [2, 2, 3] (2 * 2 * 3) rfl (by norm_num)) (.maxpool 1 exPool)) (.maxpool 2 unitPool))).mod.jmp poolX none (some v) .input)
      poolStore :=
  (C69_pools ⟨by simp [Net.Shapes, Chain.Shapes], poolNet_loose.hooks⟩ Nat.one_pos poolX_batch).2
    ⟨12, by simp [Net.pools, Chain.pools, exPool], 2, by simp [Net.pools, Chain.pools, unitPool], by norm_num⟩ r v V hv

/-- the image network of the other examples (with a convolution) -/
example : ¬ (exImg.ThroughW fun _ => True) ∧ ¬ (exImg.Through fun _ => True) := by
  constructor <;> simp [exImg, Net.ThroughW, Chain.ThroughW, Net.Through, Chain.Through]

end NNJ.Props
