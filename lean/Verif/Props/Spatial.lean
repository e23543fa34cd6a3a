import Verif.Proofs.PoolOverlap
import Verif.Proofs.ConvVmap
import Verif.Proofs.DerivL2
import Verif.Proofs.Weights
import Verif.Spec.Example

/-!
# C32, C33, C34: MaxPool2d and Conv2d
-/

namespace NNJ
namespace Props
open Matrix Prog

/-! ### C32: MaxPool2d -/

section
variable {a : Torch.PoolArgs} {c h w h2 w2 B : Nat} {X : Fin B → Fin (c * h * w) → ℝ} {x : Tensor ℝ} (st : Store ℝ) (id : Nat)

/-- Pixel `(u, v)` lies in the pooling window of output `(y, z)`. -/
def InWindow (a : Torch.PoolArgs) (y z u v : Nat) : Prop :=
  ∃ i < a.kernel.1, ∃ j < a.kernel.2,
    y * a.stride.1 + i * a.dilation.1 = u + a.padding.1 ∧ z * a.stride.2 + j * a.dilation.2 = v + a.padding.2

theorem inWindow_iff {y z u v : Nat} (hu : u < h) (hv : v < w) : InWindow a y z u v ↔ u * w + v ∈ Torch.window h w a y z := by
  rw [mem_window]
  constructor
  · rintro ⟨i, hi, j, hj, e1, e2⟩
    exact ⟨i, hi, j, hj, u, hu, v, hv, e1, e2, rfl⟩
  · rintro ⟨i, hi, j, hj, yy, hy, zz, hz, e1, e2, e⟩
    obtain ⟨rfl, rfl⟩ := pair_inj hv hz e
    exact ⟨i, hi, j, hj, e1, e2⟩

theorem plane_pix (x : Fin (c * h * w) → ℝ) (ch : Fin c) (u : Fin h) (v : Fin w) : plane x ch (u * w + v) = x (pix ch u v) := by
  have e : (ch : Nat) * (h * w) + (u * w + v) = (pix ch u v : Fin (c * h * w)) := by rw [pix_val]; ring
  simp only [plane, e, Fin.eta, Fin.is_lt, dite_true]

/-- C32: overlapping or not, `forward` and `jacobian` return, each output is the largest value in its
window, and its row of the jacobian is 1 at one pixel of the window holding that value and 0
elsewhere (a selection matrix). -/
theorem C32_selection (hf : PoolSizes a h w h2 w2) (hx : IsBatch x B [c, h, w] (c * h * w) X) :
    ∃ t Y jt J, Returns ((MaxPool2d.mod a id).forward x) st t ∧ IsBatch t B [c, h2, w2] (c * h2 * w2) Y ∧
      Returns ((MaxPool2d.mod a id).jacobian x none .input) st (some jt) ∧ IsMat jt B (c * h2 * w2) (c * h * w) J ∧
      ∀ b (ch : Fin c) (y : Fin h2) (z : Fin w2), ∃ (u : Fin h) (v : Fin w), InWindow a y z u v ∧
        (∀ (u' : Fin h) (v' : Fin w), InWindow a y z u' v' → X b (pix ch u' v') ≤ X b (pix ch u v)) ∧
        Y b (pix ch y z) = X b (pix ch u v) ∧
        ∀ m, J b (pix ch y z) m = if m = pix ch u v then 1 else 0 := by
  obtain ⟨t, s1, ht, hT, _⟩ := MaxPool2d.forward_run (id := id) (s := st) hf hx
  obtain ⟨r, s2, hr, hJ, _⟩ := MaxPool2d.jac_run (id := id) (s := st) hf hx
  cases r with
  | none => exact hJ.elim
  | some jt =>
    refine ⟨t, _, jt, _, by rw [Returns, show (MaxPool2d.mod a id).forward x st = _ from ht], hT, by rw [Returns, hr], hJ, fun b ch y z => ?_⟩
    have hm := poolPos_mem hf (X b) (pix ch y z)
    rw [row_pix, col_pix] at hm
    obtain ⟨_, _, _, _, u, hu, v, hv, _, _, e⟩ := mem_window.1 hm
    refine ⟨⟨u, hu⟩, ⟨v, hv⟩, (inWindow_iff hu hv).2 (e ▸ hm), fun u' v' hw' => ?_, ?_, fun m => ?_⟩
    · have := le_argmax (plane (X b) ch) ((inWindow_iff u'.2 v'.2).1 hw')
      rw [plane_pix] at this
      refine this.trans (le_of_eq ?_)
      refine Eq.trans ?_ (plane_pix (X b) ch ⟨u, hu⟩ ⟨v, hv⟩)
      show _ = plane (X b) ch (u * w + v)
      rw [← e, poolPos, chan_pix, row_pix, col_pix]
    · show plane (X b) (chan (pix ch y z)) (poolPos a (X b) (pix ch y z)) = _
      rw [chan_pix, e]
      exact plane_pix (X b) ch ⟨u, hu⟩ ⟨v, hv⟩
    · show (if (m : Nat) = (chan (pix ch y z) : Fin c) * (h * w) + poolPos a (X b) (pix ch y z) then (1 : ℝ) else 0) = _
      rw [chan_pix, e]
      refine if_congr ?_ rfl rfl
      rw [Fin.ext_iff, pix_val]
      constructor <;> intro h' <;> rw [h'] <;> ring

/-- C32: if every window has exactly one largest value, the jacobian is the derivative of `forward`. -/
theorem C32_derivative (hf : PoolSizes a h w h2 w2) (hx : IsBatch x B [c, h, w] (c * h * w) X) :
    ∃ jt J, Returns ((MaxPool2d.mod a id).jacobian x none .input) st (some jt) ∧ IsMat jt B (c * h2 * w2) (c * h * w) J ∧
      ∀ b, (∀ (ch : Fin c) (y : Fin h2) (z : Fin w2), ∃ (u : Fin h) (v : Fin w), InWindow a y z u v ∧
          ∀ (u' : Fin h) (v' : Fin w), InWindow a y z u' v' → (u', v') ≠ (u, v) → X b (pix ch u' v') < X b (pix ch u v)) →
        HasFDerivAt (forwardMap (MaxPool2d.mod a id) st [c, h, w]) (linMap (J b)) (X b) := by
  obtain ⟨r, s2, hr, hJ, _⟩ := MaxPool2d.jac_run (id := id) (s := st) hf hx
  cases r with
  | none => exact hJ.elim
  | some jt =>
    refine ⟨jt, _, by rw [Returns, hr], hJ, fun b hu => ?_⟩
    have e : forwardMap (MaxPool2d.mod a id) st [c, h, w] = (poolSem a c h w h2 w2).f fun _ => 0 := by
      funext z i
      obtain ⟨t, s1, ht, hT, _⟩ := MaxPool2d.forward_run (id := id) (s := st) hf (ofSample_isBatch (s := [c, h, w]) z)
      simp only [forwardMap]
      rw [show (MaxPool2d.mod a id).forward (ofSample [c, h, w] z) st = _ from ht]
      have := hT.2 0 i
      simp only [Fin.val_zero, Nat.zero_mul, Nat.zero_add] at this
      exact this
    rw [e]
    refine (poolSem_diff hf _ _ fun k q hq hne => ?_).input
    obtain ⟨ch, y, z, rfl⟩ := pix_surj k
    rw [chan_pix] at *
    have hm := poolPos_mem hf (X b) (pix ch y z)
    have hpe : poolPos a (X b) (pix ch y z) = Torch.argmax (plane (X b) ch) (Torch.window h w a y z) := by
      rw [poolPos, chan_pix, row_pix, col_pix]
    rw [row_pix, col_pix] at hm hq
    obtain ⟨_, _, _, _, u, hu1, v, hv1, _, _, e1⟩ := mem_window.1 hm
    obtain ⟨_, _, _, _, u', hu1', v', hv1', _, _, rfl⟩ := mem_window.1 hq
    obtain ⟨u0, v0, hw0, hmax⟩ := hu ch y z
    have hval : ∀ (r : Nat) (hr : r < h) (s : Nat) (hs : s < w), plane (X b) ch (r * w + s) = X b (pix ch ⟨r, hr⟩ ⟨s, hs⟩) :=
      fun r hr s hs => plane_pix (X b) ch ⟨r, hr⟩ ⟨s, hs⟩
    have h0 := le_argmax (plane (X b) ch) ((inWindow_iff u0.2 v0.2).1 hw0)
    rw [← hpe, e1, plane_pix, hval u hu1 v hv1] at h0
    have huv : ((⟨u, hu1⟩, ⟨v, hv1⟩) : Fin h × Fin w) = (u0, v0) := by
      by_contra hc
      exact absurd (hmax _ _ ((inWindow_iff hu1 hv1).2 (e1 ▸ hm)) hc) (not_lt.2 h0)
    rw [e1, hval u' hu1' v' hv1', hval u hu1 v hv1]
    have huv' : ((⟨u', hu1'⟩, ⟨v', hv1'⟩) : Fin h × Fin w) ≠ (u0, v0) := by
      rw [← huv]
      rintro hc
      simp only [Prod.mk.injEq, Fin.mk.injEq] at hc
      exact hne (by rw [e1, hc.1, hc.2])
    have := hmax _ _ ((inWindow_iff hu1' hv1').2 hq) huv'
    rw [Prod.mk.injEq] at huv
    rw [huv.1, huv.2]; exact this

/-- C32: with windows that do not share a pixel, `vjp`, `mjp` and `jTmjp` are the products with the
matrix that `jacobian` returns, for every input, vector, matrix and diagonal mode. -/
theorem C32_disjoint (hc : 0 < c) (hf : PoolFits a h w h2 w2) (hB : 0 < B) (hx : IsBatch x B [c, h, w] (c * h * w) X) :
    ∃ jt J, Returns ((MaxPool2d.mod a id).jacobian x none .input) st (some jt) ∧ IsMat jt B (c * h2 * w2) (c * h * w) J ∧
      (∀ v V, IsVec v B (c * h2 * w2) V → ∃ t, Returns ((MaxPool2d.mod a id).vjp x none v .input) st (some t) ∧
        IsVec t B (c * h * w) fun b => V b ᵥ* J b) ∧
      (∀ r A Z, 0 < r → IsMat A B r (c * h2 * w2) Z → ∃ t, Returns ((MaxPool2d.mod a id).mjp x none (some A) .input) st (some t) ∧
        IsMat t B r (c * h * w) fun b => Z b * J b) ∧
      (∀ fromDiag toDiag A Z, MetricArg fromDiag A B (c * h2 * w2) Z →
        ∃ t, Returns ((MaxPool2d.mod a id).jTmjp x none (some A) .input fromDiag toDiag false) st (.tensor t) ∧
          MetricOut toDiag t B (c * h * w) fun b => (J b)ᵀ * Z b * J b) := by
  have h : (Net.maxpool id ⟨a, c, h, w, h2, w2, hc, hf⟩).Ok st := ⟨by simp [Net.ids], trivial⟩
  obtain ⟨jt, hj, hJ⟩ := h.jacI hB hx
  exact ⟨jt, _, hj, hJ, fun v V hv => h.vjpI hB hx hv, fun r A Z hr hA => h.mjpI hB hx hr hA, fun fd td A Z hA => h.jTI hB hx fd td hA⟩

/-- C32: stride at least the (dilated) kernel extent suffices; for dilation 1 this is `kernel ≤ stride`. -/
theorem C32_stride (hf : PoolSizes a h w h2 w2) (d1 : a.dilation = (1, 1)) (s1 : a.kernel.1 ≤ a.stride.1) (s2 : a.kernel.2 ≤ a.stride.2) :
    PoolFits a h w h2 w2 := by
  refine hf.fits_of_stride ?_ ?_ <;> rw [d1] <;> simp only [Nat.mul_one]
  · have := hf.k1; omega
  · have := hf.k2; omega

/-- C32: as soon as some pixel lies in the windows of two outputs, there are an image and a vector for
which `vjp` is not the product with the matrix that `jacobian` returns. -/
theorem C32_overlap (hc : 0 < c) (hf : PoolSizes a h w h2 w2) {u : Fin h} {v : Fin w} {y y' : Fin h2} {z z' : Fin w2}
    (hne : (y, z) ≠ (y', z')) (h1 : InWindow a y z u v) (h2' : InWindow a y' z' u v) :
    ∃ x X g G jt J t, IsBatch x 1 [c, h, w] (c * h * w) X ∧ IsVec g 1 (c * h2 * w2) G ∧
      Returns ((MaxPool2d.mod a id).jacobian x none .input) st (some jt) ∧ IsMat jt 1 (c * h2 * w2) (c * h * w) J ∧
      Returns ((MaxPool2d.mod a id).vjp x none g .input) st (some t) ∧ ¬ IsVec t 1 (c * h * w) fun b => G b ᵥ* J b :=
  MaxPool2d.overlap hc hf (fun e => hne (Prod.ext e.1 e.2)) ((inWindow_iff u.2 v.2).1 h1) ((inWindow_iff u.2 v.2).1 h2') st

/-- C32: exactly the pooling layers without overlap have correct `vjp`s. -/
theorem C32_iff (hc : 0 < c) (hf : PoolSizes a h w h2 w2) :
    (∀ {B : Nat} {x X v V jt J}, 0 < B → IsBatch x B [c, h, w] (c * h * w) X → IsVec v B (c * h2 * w2) V →
      Returns ((MaxPool2d.mod a id).jacobian x none .input) st (some jt) → IsMat jt B (c * h2 * w2) (c * h * w) J →
      ∃ t, Returns ((MaxPool2d.mod a id).vjp x none v .input) st (some t) ∧ IsVec t B (c * h * w) fun b => V b ᵥ* J b) ↔
    ∀ (u : Fin h) (v : Fin w) (y y' : Fin h2) (z z' : Fin w2), InWindow a y z u v → InWindow a y' z' u v → (y, z) = (y', z') := by
  constructor
  · intro hex u v y y' z z' h1 h2'
    by_contra hne
    obtain ⟨x, X, g, G, jt, J, t, hx, hg, hj, hJ, hv, hbad⟩ := C32_overlap st id hc hf hne h1 h2'
    obtain ⟨t', ht', hT'⟩ := hex Nat.one_pos hx hg hj hJ
    rw [Returns] at hv ht'
    rw [hv] at ht'
    cases ht'
    exact hbad hT'
  · intro hd B x X v V jt J hB hx hv hj hJ
    have hfit : PoolFits a h w h2 w2 := by
      refine ⟨hf, fun y hy z hz y' hy' z' hz' q hq hq' => ?_⟩
      obtain ⟨_, _, _, _, u, hu, v, hv, _, _, rfl⟩ := mem_window.1 hq
      have := hd ⟨u, hu⟩ ⟨v, hv⟩ ⟨y, hy⟩ ⟨y', hy'⟩ ⟨z, hz⟩ ⟨z', hz'⟩ ((inWindow_iff hu hv).2 hq) ((inWindow_iff hu hv).2 hq')
      simpa using this
    obtain ⟨jt', J', hj', hJ', hv', _⟩ := C32_disjoint st id hc hfit hB hx
    rw [Returns] at hj hj'
    rw [hj] at hj'
    cases hj'
    obtain ⟨t, ht, hT⟩ := hv' v V hv
    refine ⟨t, ht, ?_⟩
    have : J = J' := by
      funext b; ext i j
      rw [← hJ.2, ← hJ'.2]
    rw [this]; exact hT

/-- `MaxPool2d(kernel_size=2)` on 4x4 images: the windows tile the image. -/
def exTile : Torch.PoolArgs := { kernel := (2, 2), stride := (2, 2) }
/-- `MaxPool2d(kernel_size=2, stride=1)` on 3x3 images: neighbouring windows overlap. -/
def exOverlap : Torch.PoolArgs := { kernel := (2, 2), stride := (1, 1) }

theorem exTile_sizes : PoolSizes exTile 4 4 2 2 := by
  constructor <;> decide
theorem exOverlap_sizes : PoolSizes exOverlap 3 3 2 2 := by
  constructor <;> decide

/-- tiling windows: exact products -/
example : PoolFits exTile 4 4 2 2 := C32_stride exTile_sizes rfl (by decide) (by decide)

/-- overlapping windows: pixel (1, 1) lies in the windows of outputs (0, 0) and (1, 1) -/
example (st : Store ℝ) : ∃ x X g G jt J t, IsBatch x 1 [3, 3, 3] (3 * 3 * 3) X ∧ IsVec g 1 (3 * 2 * 2) G ∧
    Returns ((MaxPool2d.mod exOverlap 0).jacobian x none .input) st (some jt) ∧ IsMat jt 1 (3 * 2 * 2) (3 * 3 * 3) J ∧
    Returns ((MaxPool2d.mod exOverlap 0).vjp x none g .input) st (some t) ∧ ¬ IsVec t 1 (3 * 3 * 3) fun b => G b ᵥ* J b :=
  C32_overlap (u := 1) (v := 1) (y := 0) (y' := 1) (z := 0) (z' := 1) st 0 (by norm_num) exOverlap_sizes (by decide)
    ⟨1, by decide, 1, by decide, rfl, rfl⟩ ⟨0, by decide, 0, by decide, rfl, rfl⟩

end

/-! ### C34: Conv2d -/

section
variable (g : ConvDims) (id wId : Nat) (bId : Option Nat) {st : Store ℝ} {B : Nat} {X : Fin B → Fin (g.c1 * g.h1 * g.w1) → ℝ} {x : Tensor ℝ}

/-- The parameters of the Conv2d have the shapes given by the constructor, and the bias is not the weight object. -/
structure ConvParams (g : ConvDims) (wId : Nat) (bId : Option Nat) (st : Store ℝ) : Prop where
  weight : (st.param wId).shape = [g.c2, g.c1, g.kh, g.kw]
  bias : ∀ b ∈ bId, (st.param b).shape = [g.c2]
  ne : wId ∉ bId

theorem convNet_ok (hw : ConvParams g wId bId st) : (Net.conv id wId bId g).Ok st := ⟨by simp [Net.ids], hw.weight, hw.bias⟩

/-- the module object `nnj.Conv2d(c1, c2, (kh, kw), stride=1, padding=(ph, pw), bias=...)` -/
noncomputable abbrev convMod (g : ConvDims) (id wId : Nat) (bId : Option Nat) : Mod ℝ := Conv2d.mod (g.cfg bId) id wId (bId.getD 0)

/-- C34: `forward` computes the zero-padded cross-correlation
`y[o,r,s] = Σ_c Σ_i Σ_j x[c, r+i-ph, s+j-pw] W[o,c,i,j] + b[o]`. -/
theorem C34_forward (hw : ConvParams g wId bId st) (hB : 0 < B) (hx : IsBatch x B [g.c1, g.h1, g.w1] (g.c1 * g.h1 * g.w1) X) :
    ∃ t Y, Returns ((convMod g id wId bId).forward x) st t ∧ IsBatch t B [g.c2, g.h2, g.w2] (g.c2 * g.h2 * g.w2) Y ∧
      ∀ b (o : Fin g.c2) (r : Fin g.h2) (s : Fin g.w2), Y b (pix o r s) =
        (∑ c : Fin g.c1, ∑ i : Fin g.kh, ∑ j : Fin g.kw,
          padAt (fun (u : Fin g.h1) (v : Fin g.w1) => X b (pix c u v)) ((r : Nat) + (i : Nat) - (g.ph : Int)) ((s : Nat) + (j : Nat) - (g.pw : Int))
            * (st.param wId).data (kix o c i j)) +
        match bId with
        | some β => (st.param β).data o
        | none => 0 := by
  obtain ⟨t, ht, hT⟩ := (convNet_ok g id wId bId hw).forward hB hx
  refine ⟨t, _, ht, hT, fun b o r s => ?_⟩
  show convF bId g.c1 g.h1 g.w1 g.c2 g.h2 g.w2 g.kh g.kw g.ph g.pw (convW wId bId g st) (X b) (pix o r s) = _
  simp only [convF, chan_pix, row_pix, col_pix, convW, Fin.append_left, Fin.append_right]
  congr 1
  cases bId with
  | none => simp [biasLen]
  | some β => simp [biasLen]

/-- C34: with padding at most `kernel - 1`, stride and dilation 1 and one group (any kernel size, image
size and channel counts, square or not; vmap or not), `jacobian` wrt input is the derivative of `forward` and
the products with respect to the input are the products with it. -/
theorem C34_input (hw : ConvParams g wId bId st) (hB : 0 < B) (hx : IsBatch x B [g.c1, g.h1, g.w1] (g.c1 * g.h1 * g.w1) X) :
    ∃ jt J, Returns ((convMod g id wId bId).jacobian x none .input) st (some jt) ∧
      IsMat jt B (g.c2 * g.h2 * g.w2) (g.c1 * g.h1 * g.w1) J ∧
      (∀ b, HasFDerivAt (forwardMap (convMod g id wId bId) st [g.c1, g.h1, g.w1]) (linMap (J b)) (X b)) ∧
      (∀ v V, IsVec v B (g.c2 * g.h2 * g.w2) V → ∃ t, Returns ((convMod g id wId bId).vjp x none v .input) st (some t) ∧
        IsVec t B (g.c1 * g.h1 * g.w1) fun b => V b ᵥ* J b) ∧
      (∀ r A Z, 0 < r → IsMat A B r (g.c2 * g.h2 * g.w2) Z →
        ∃ t, Returns ((convMod g id wId bId).mjp x none (some A) .input) st (some t) ∧
          IsMat t B r (g.c1 * g.h1 * g.w1) fun b => Z b * J b) ∧
      (∀ fromDiag toDiag A Z, MetricArg fromDiag A B (g.c2 * g.h2 * g.w2) Z →
        ∃ t, Returns ((convMod g id wId bId).jTmjp x none (some A) .input fromDiag toDiag false) st (.tensor t) ∧
          MetricOut toDiag t B (g.c1 * g.h1 * g.w1) fun b => (J b)ᵀ * Z b * J b) := by
  have h := convNet_ok g id wId bId hw
  obtain ⟨jt, hj, hJ⟩ := h.jacI hB hx
  refine ⟨jt, _, hj, hJ, fun b => ?_, fun v V hv => h.vjpI hB hx hv, fun r A Z hr hA => h.mjpI hB hx hr hA, fun fd td A Z hA => h.jTI hB hx fd td hA⟩
  have e := h.forwardMap_eq
  simp only [Net.mod] at e
  rw [e]
  exact ((Net.conv id wId bId g).diff _ _ trivial).input

/-- C34: the same with respect to the weights: `jacobian` is the derivative of
`w ↦ set_weight(w); forward(x)` at the current weights, and the products are the products with it. -/
theorem C34_weight (hw : ConvParams g wId bId st) (hB : 0 < B) (hx : IsBatch x B [g.c1, g.h1, g.w1] (g.c1 * g.h1 * g.w1) X) :
    ∃ jt J wt W, Returns ((convMod g id wId bId).jacobian x none .weight) st (some jt) ∧
      IsMat jt B (g.c2 * g.h2 * g.w2) (g.c2 * g.c1 * g.kh * g.kw + biasLen bId g.c2) J ∧
      Returns (convMod g id wId bId).getWeight st wt ∧ IsVec1 wt (g.c2 * g.c1 * g.kh * g.kw + biasLen bId g.c2) W ∧
      (∀ b : Fin B, HasFDerivAt (weightMap (convMod g id wId bId) st x b) (linMap (J b)) W) ∧
      (∀ v V, IsVec v B (g.c2 * g.h2 * g.w2) V → ∃ t, Returns ((convMod g id wId bId).vjp x none v .weight) st (some t) ∧
        IsVec t B (g.c2 * g.c1 * g.kh * g.kw + biasLen bId g.c2) fun b => V b ᵥ* J b) ∧
      (∀ r A Z, 0 < r → IsMat A B r (g.c2 * g.h2 * g.w2) Z →
        ∃ t, Returns ((convMod g id wId bId).mjp x none (some A) .weight) st (some t) ∧
          IsMat t B r (g.c2 * g.c1 * g.kh * g.kw + biasLen bId g.c2) fun b => Z b * J b) ∧
      (∀ fromDiag toDiag A Z, MetricArg fromDiag A B (g.c2 * g.h2 * g.w2) Z →
        ∃ t, Returns ((convMod g id wId bId).jTmjp x none (some A) .weight fromDiag toDiag false) st (.tensor t) ∧
          MetricOut toDiag t B (g.c2 * g.c1 * g.kh * g.kw + biasLen bId g.c2) fun b => (J b)ᵀ * Z b * J b) := by
  have h := convNet_ok g id wId bId hw
  have hp : 0 < g.c2 * g.c1 * g.kh * g.kw + biasLen bId g.c2 :=
    Nat.add_pos_left (Nat.mul_pos (Nat.mul_pos (Nat.mul_pos g.hc2 g.hc1) g.pkh) g.pkw) _
  have hs : (Net.conv id wId bId g).paramIds.Nodup := by
    rw [Net.paramIds]
    cases bId with
    | none => simp
    | some b => simpa using fun e => hw.ne (by simp [e])
  obtain ⟨jt, hj, hJ⟩ := h.jacW hB hx hp
  obtain ⟨wt, hwt, hW⟩ := h.getWeight hs hp
  refine ⟨jt, _, wt, _, hj, hJ, by rw [Returns, show (convMod g id wId bId).getWeight st = _ from hwt], hW, fun b => ?_,
    fun v V hv => (h.vjpW hB hx hv).1 hp, fun r A Z hr hA => (h.mjpW hB hx hr hA).1 hp, fun fd td A Z hA => ?_⟩
  · have e := h.weightMap_eq hs hB hx b
    simp only [Net.mod] at e
    rw [e]
    exact ((Net.conv id wId bId g).diff _ _ trivial).weight
  · cases td with
    | true => exact (h.jTWd hB hx fd hA).1 hp
    | false =>
      obtain ⟨v, hv, hV⟩ := (h.jTWf hB hx fd hA).1 hp
      obtain ⟨t, rfl, hT⟩ : ∃ t, v = .tensor t ∧ IsMat t B _ _ _ := hV
      exact ⟨t, hv, hT⟩

end

/-- C34: with padding larger than `kernel - 1` in some direction, or more than one group, every weight-space
product raises: any weights, nonempty batch, arguments, state. -/
theorem C34_raises {α : Type} [Zero α] [One α] [Add α] [Mul α] {cfg : Conv2d.Cfg}
    (hbad : cfg.kernel.1 - 1 < cfg.padding.1 ∨ cfg.kernel.2 - 1 < cfg.padding.2 ∨ cfg.groups ≠ 1)
    (hk1 : 0 < cfg.kernel.1) (hk2 : 0 < cfg.kernel.2)
    {x : Tensor α} (hx : x.shape.head? ≠ some 0) (id wId bId : Nat) (val : Option (Tensor α)) :
    Raises ((Conv2d.mod cfg id wId bId).jacobian x val .weight) ∧
    (∀ v, Raises ((Conv2d.mod cfg id wId bId).vjp x val v .weight)) ∧
    (∀ m, Raises ((Conv2d.mod cfg id wId bId).mjp x val m .weight)) ∧
    (∀ m fromDiag toDiag diagBackprop, Raises ((Conv2d.mod cfg id wId bId).jTmjp x val m .weight fromDiag toDiag diagBackprop)) := by
  have hb : cfg.NoWeight := by
    simp only [Conv2d.Cfg.NoWeight]
    rcases hbad with h | h | h
    · exact .inl (by omega)
    · exact .inr (.inl (by omega))
    · exact .inr (.inr h)
  refine ⟨fun s => ?_, fun v s => ?_, fun m s => ?_, fun m fd td db s => ?_⟩
  · obtain ⟨e, he⟩ := Conv2d.jacobian_bad (W := s.param wId) (bias := if cfg.hasBias then some (s.param bId) else none) hb hx val
    exact ⟨e, s, Prod.ext he rfl⟩
  · obtain ⟨e, he⟩ := Conv2d.vjp_bad (W := s.param wId) (bias := if cfg.hasBias then some (s.param bId) else none) hb hx val v
    exact ⟨e, s, Prod.ext he rfl⟩
  · obtain ⟨e, he⟩ := Conv2d.mjp_bad (W := s.param wId) (bias := if cfg.hasBias then some (s.param bId) else none) hb hx val m
    exact ⟨e, s, Prod.ext he rfl⟩
  · obtain ⟨e, he⟩ := Conv2d.jTmjp_bad (W := s.param wId) (bias := if cfg.hasBias then some (s.param bId) else none) hb hx val m fd td db
    refine ⟨e, s, Prod.ext ?_ rfl⟩
    show (do let r ← Conv2d.jTmjp cfg _ _ x val m .weight fd td db; pure (PyVal.ofOption r)) = _
    rw [he]; rfl

/-- a 2x2 kernel with padding (0, 1) on 3x2 images, 1 channel to 2 channels, with bias -/
theorem exConvParams : ConvParams exConv 0 (some 1) exImgStore :=
  ⟨by simp [exImgStore, exConv], by simp [exImgStore, exConv], by simp⟩

example : ∃ jt J wt W, Returns ((convMod exConv 1 0 (some 1)).jacobian exImgInput none .weight) exImgStore (some jt) ∧
    IsMat jt 2 (2 * 2 * 3) (2 * 1 * 2 * 2 + 2) J ∧ Returns (convMod exConv 1 0 (some 1)).getWeight exImgStore wt ∧ IsVec1 wt (2 * 1 * 2 * 2 + 2) W ∧
    ∀ b : Fin 2, HasFDerivAt (weightMap (convMod exConv 1 0 (some 1)) exImgStore exImgInput b) (linMap (J b)) W := by
  obtain ⟨jt, J, wt, W, h1, h2, h3, h4, h5, _⟩ := C34_weight exConv 1 0 (some 1) exConvParams (by norm_num) exImgInput_isBatch
  exact ⟨jt, J, wt, W, h1, h2, h3, h4, h5⟩

/-- `Conv2d(1, 1, 2, padding=2)` on a 3x2 image -/
example : Raises ((Conv2d.mod { inChannels := 1, outChannels := 1, kernel := (2, 2), padding := (2, 2) } 0 0 0).jacobian exImgInput none .weight) :=
  (C34_raises (.inl (by decide)) (by decide) (by decide) (by simp [exImgInput]) 0 0 0 none).1

/-! ### C33: `use_vmap_for_backprop` -/

/-- C33: with `use_vmap_for_backprop=True` and with `False`, every method (with any arguments) either raises in
both cases or returns the same value in both cases, and the state is the same afterwards; for every
configuration (padding, dilation, groups, kernel, bias), weights, input with at least one sample,
`val` (given or not; if given, without empty dimensions), state. -/
theorem C33_vmap_loop (cfg : Conv2d.Cfg) (id wId bId : Nat) (st : Store ℝ) (hW : (st.param wId).shape.head? ≠ some 0) (x : Tensor ℝ)
    (hx : x.shape.head? ≠ some 0) (val : Option (Tensor ℝ)) (hval : ∀ v ∈ val, 0 ∉ v.shape) (c : Call) :
    (∃ e e', c.run (Conv2d.mod { cfg with useVmap := true } id wId bId) x val st = (.error e, st) ∧
      c.run (Conv2d.mod { cfg with useVmap := false } id wId bId) x val st = (.error e', st)) ∨
    ∃ r r', c.run (Conv2d.mod { cfg with useVmap := true } id wId bId) x val st = (.ok r, st) ∧
      c.run (Conv2d.mod { cfg with useVmap := false } id wId bId) x val st = (.ok r', st) ∧ PEq r r' := 
  Conv2d.vmap_agree cfg id wId bId st hW x hx val hval c

/-- 3x2 images, kernel 2x2, padding (0, 1): both versions of the Jacobian wrt the weights return, and they agree -/
example : ∃ r r', (Call.jacobian .weight).run (Conv2d.mod { exConv.cfg (some 1) with useVmap := true } 1 0 1) exImgInput none exImgStore = (.ok r, exImgStore) ∧
    (Call.jacobian .weight).run (Conv2d.mod { exConv.cfg (some 1) with useVmap := false } 1 0 1) exImgInput none exImgStore = (.ok r', exImgStore) ∧
    PEq r r' := by
  rcases C33_vmap_loop (exConv.cfg (some 1)) 1 0 1 exImgStore (by simp [exImgStore]) exImgInput (by simp [exImgInput]) none (by simp)
    (Call.jacobian .weight) with ⟨e, _, h, _⟩ | h
  · exfalso
    obtain ⟨t, _, _, _, ht, _⟩ := C34_weight exConv 1 0 (some 1) exConvParams (by norm_num) exImgInput_isBatch
    obtain ⟨st', ht⟩ : ∃ st', (convMod exConv 1 0 (some 1)).jacobian exImgInput none .weight exImgStore = (.ok (some t), st') := ⟨_, Prod.ext ht rfl⟩
    have h2 : (Call.jacobian .weight).run (convMod exConv 1 0 (some 1)) exImgInput none exImgStore = (.error e, exImgStore) := h
    rw [Call.run, Prog.bind_ok ht] at h2
    cases h2
  · exact h

end Props
end NNJ
