import Verif.Proofs.ProgLemmas
import Verif.Model.Conv2d

/-! Weight-space products of Conv2d with padding larger than the kernel allows, or with groups: they raise. -/

namespace NNJ
open Tensor

variable {α β γ : Type}

/-- the stateless call raises -/
def Bad (r : Res β) : Prop := ∃ e, r = .error e

theorem Bad.bindAll {r : Res β} {f : β → Res γ} (h : ∀ b, r = .ok b → Bad (f b)) : Bad (r >>= f) := by
  cases r with
  | error e => exact ⟨e, rfl⟩
  | ok b => exact h b rfl

theorem Bad.bind {r : Res β} {f : β → Res γ} (h : Bad r) : Bad (r >>= f) := by
  obtain ⟨e, rfl⟩ := h
  exact ⟨e, rfl⟩

theorem Bad.map {r : Res β} {f : β → γ} (h : Bad r) : Bad (f <$> r) := by
  obtain ⟨e, rfl⟩ := h
  exact ⟨e, rfl⟩

theorem Bad.mapM_range {f : Nat → Res β} {n : Nat} (hn : 0 < n) (h : ∀ i, Bad (f i)) : Bad ((List.range n).mapM f) := by
  obtain ⟨m, rfl⟩ := Nat.exists_eq_succ_of_ne_zero (Nat.pos_iff_ne_zero.1 hn)
  rw [List.range_succ_eq_map, List.mapM_cons]
  exact (h 0).bind

theorem Bad.foldlM_range {f : γ → Nat → Res γ} {n : Nat} (hn : 0 < n) (h : ∀ t i, Bad (f t i)) (z : γ) :
    Bad ((List.range n).foldlM f z) := by
  obtain ⟨m, rfl⟩ := Nat.exists_eq_succ_of_ne_zero (Nat.pos_iff_ne_zero.1 hn)
  rw [List.range_succ_eq_map, List.foldlM_cons]
  exact (h z 0).bind

theorem Bad.vmap2 {f : Tensor α → Tensor β → Res (Tensor γ)} {a : Tensor α} {b : Tensor β} (h : ∀ u v, Bad (f u v)) :
    Bad (Tensor.vmap2 f a b) := by
  refine Bad.bindAll fun n _ => Bad.bindAll fun m _ => ?_
  split
  · rcases Nat.eq_zero_or_pos n with rfl | hn
    · exact ⟨_, rfl⟩
    · refine (Bad.mapM_range hn fun i => Bad.bindAll fun u _ => Bad.bindAll fun v _ => h u v).bind
  · exact ⟨_, rfl⟩

theorem reshapeInfer_shape {t u : Tensor α} {pre post : List Nat} (h : t.reshapeInfer pre post = .ok u) :
    ∃ m, u.shape = pre ++ m :: post := by
  simp only [reshapeInfer] at h
  split at h
  · cases h
  · split at h
    · cases h; exact ⟨_, rfl⟩
    · cases h

set_option linter.unusedSectionVars false

namespace Conv2d
variable [Zero α] [One α] [Add α] [Mul α]

/-- the configurations whose weight-space products do not work -/
def Cfg.NoWeight (cfg : Cfg) : Prop := cfg.kernel.1 ≤ cfg.padding.1 ∨ cfg.kernel.2 ≤ cfg.padding.2 ∨ cfg.groups ≠ 1

variable {cfg : Cfg} (hb : cfg.NoWeight)
include hb

theorem conv2d_dw_bad {v W : Tensor α} {m h w : Nat} (hv : v.shape = [m, 1, h, w]) : Bad (Torch.conv2d v W none cfg.dwArgs) := by
  simp only [Torch.conv2d, hv]
  split
  · rename_i n ci h' w' co cg kh kw h1 h2
    simp only [List.cons.injEq, and_true] at h1
    obtain ⟨rfl, rfl, rfl, rfl⟩ := h1
    split
    · exact ⟨_, rfl⟩
    · rename_i hp
      split
      · exact ⟨_, rfl⟩
      · rename_i hz
        split
        · exact ⟨_, rfl⟩
        · rename_i hg
          exfalso
          replace hg := Classical.not_not.1 hg
          simp only [not_or, Int.not_lt] at hp hz
          simp only [Cfg.dwArgs, Cfg.dwPadding, computeReversedPadding] at hp hz hg
          rcases hb with h | h | h
          · omega
          · omega
          · have := Nat.eq_one_of_mul_eq_one_left hg.1
            exact h this
  · exact ⟨_, rfl⟩

theorem vjpSingle_bad (c1 c2 h2 w2 : Nat) (v r : Tensor α) : Bad (vjpSingle cfg c1 c2 h2 w2 v r) := by
  refine Bad.bindAll fun u hu => Bad.bind ?_
  obtain ⟨m, hm⟩ := reshapeInfer_shape hu
  exact conv2d_dw_bad hb hm

theorem mjpSingle_bad (c1 c2 h2 w2 rows : Nat) (v r : Tensor α) : Bad (mjpSingle cfg c1 c2 h2 w2 rows v r) := by
  refine Bad.bindAll fun _ _ => Bad.bindAll fun u hu => Bad.bind ?_
  obtain ⟨m, hm⟩ := reshapeInfer_shape hu
  exact conv2d_dw_bad hb hm

theorem weightDiagSingle_bad (c1 c2 h2 w2 : Nat) (v r : Tensor α) : Bad (weightDiagSingle cfg c1 c2 h2 w2 v r) := by
  refine Bad.bindAll fun _ _ => Bad.bindAll fun u hu => Bad.bind ?_
  obtain ⟨m, hm⟩ := reshapeInfer_shape hu
  exact conv2d_dw_bad hb hm

omit [Zero α] [One α] [Add α] [Mul α] hb in
theorem fillRows_bad {f : Nat → Res (Tensor α)} {n : Nat} (hn : 0 < n) (h : ∀ i, Bad (f i)) (z : Tensor α) : Bad (fillRows f n z) :=
  Bad.foldlM_range hn (fun _ i => (h i).bind) z

theorem vjpKernel_bad {b : Nat} (hB : 0 < b) (x : Tensor α) (c1 c2 h2 w2 : Nat) (v : Tensor α) : Bad (vjpKernel cfg x b c1 c2 h2 w2 v) := by
  rw [vjpKernel]
  split
  · refine Bad.bindAll fun _ _ => Bad.vmap2 fun u w => ?_
    exact Bad.bindAll fun _ _ => Bad.bindAll fun _ _ => Bad.bindAll fun _ _ => Bad.bindAll fun _ _ => vjpSingle_bad hb ..
  · refine Bad.bindAll fun _ _ => fillRows_bad hB (fun i => ?_) _
    exact Bad.bindAll fun _ _ => Bad.bindAll fun _ _ => Bad.bindAll fun _ _ => Bad.bindAll fun _ _ => vjpSingle_bad hb ..

theorem mjpKernel_bad {b : Nat} (hB : 0 < b) (x : Tensor α) (c1 c2 h2 w2 rows : Nat) (v : Tensor α) : Bad (mjpKernel cfg x b c1 c2 h2 w2 rows v) := by
  rw [mjpKernel]
  split
  · refine Bad.bindAll fun _ _ => Bad.vmap2 fun u w => ?_
    exact Bad.bindAll fun _ _ => Bad.bindAll fun _ _ => Bad.bindAll fun _ _ => Bad.bindAll fun _ _ => mjpSingle_bad hb ..
  · refine Bad.bindAll fun _ _ => fillRows_bad hB (fun i => ?_) _
    exact Bad.bindAll fun _ _ => Bad.bindAll fun _ _ => Bad.bindAll fun _ _ => Bad.bindAll fun _ _ => mjpSingle_bad hb ..

theorem weightSandwich_bad (bias : Option (Tensor α)) (c1 c2 h2 w2 : Nat) (m r : Tensor α) : Bad (weightSandwich cfg bias c1 c2 h2 w2 m r) := by
  refine Bad.bind (Bad.bindAll fun _ _ => Bad.bindAll fun _ _ => ?_)
  exact Bad.bindAll fun _ _ => Bad.bindAll fun _ _ => (mjpSingle_bad hb ..).bind

theorem weightDiagKernel_bad {b : Nat} (hB : 0 < b) (c1 c2 h2 w2 : Nat) (x v : Tensor α) : Bad (weightDiagKernel cfg b c1 c2 h2 w2 x v) := by
  rw [weightDiagKernel]
  split
  · refine Bad.vmap2 fun u w => ?_
    exact Bad.bindAll fun _ _ => Bad.bindAll fun _ _ => Bad.bindAll fun _ _ => Bad.bindAll fun _ _ => weightDiagSingle_bad hb ..
  · refine Bad.bindAll fun _ _ => Bad.bindAll fun _ _ => fillRows_bad hB (fun i => ?_) _
    exact Bad.bindAll fun _ _ => Bad.bindAll fun _ _ => weightDiagSingle_bad hb ..

variable {W x : Tensor α} {bias : Option (Tensor α)} (hx : x.shape.head? ≠ some 0)
include hx

omit [Zero α] [One α] [Add α] [Mul α] hb in
theorem dims4_pos {d : Nat × Nat × Nat × Nat} (h : x.dims4 = .ok d) : 0 < d.1 := by
  unfold dims4 at h
  split at h
  · rename_i a b c e hs
    cases h
    rw [hs] at hx
    simp only [List.head?_cons, ne_eq, Option.some.injEq] at hx
    omega
  · cases h

theorem vjp_bad (val : Option (Tensor α)) (v : Tensor α) : Bad (vjp cfg W bias x val v .weight) := by
  refine Bad.bindAll fun val _ => Bad.bindAll fun d hd => Bad.bindAll fun d' _ => Bad.bindAll fun _ _ => ?_
  exact Bad.bindAll fun _ _ => Bad.bindAll fun _ _ => (vjpKernel_bad hb (dims4_pos hx hd) ..).bind

theorem mjpSome_bad (val m : Tensor α) : Bad (mjpSome cfg W bias x val m .weight) := by
  refine Bad.bindAll fun d hd => Bad.bindAll fun d' _ => Bad.bindAll fun _ _ => Bad.bindAll fun _ _ => ?_
  exact Bad.bindAll fun _ _ => Bad.bindAll fun _ _ => Bad.bindAll fun _ _ => (mjpKernel_bad hb (dims4_pos hx hd) ..).bind

theorem jacobian_bad (val : Option (Tensor α)) : Bad (jacobian cfg W bias x val .weight) :=
  Bad.bindAll fun _ _ => Bad.bindAll fun _ _ => Bad.bindAll fun _ _ => mjpSome_bad hb hx ..

theorem mjp_bad (val m : Option (Tensor α)) : Bad (mjp cfg W bias x val m .weight) := by
  refine Bad.bindAll fun _ _ => ?_
  cases m
  · exact jacobian_bad hb hx _
  · exact mjpSome_bad hb hx ..

theorem jTmjpWeightFull_bad (val m : Tensor α) : Bad (jTmjpWeightFull cfg bias x val m) := by
  refine Bad.bindAll fun d hd => Bad.bindAll fun d' _ => Bad.bindAll fun _ _ => ?_
  split
  · exact Bad.vmap2 fun u v => Bad.bindAll fun _ _ => Bad.bindAll fun _ _ => Bad.bindAll fun _ _ => Bad.bindAll fun _ _ => weightSandwich_bad hb ..
  · exact fillRows_bad (dims4_pos hx hd) (fun i => Bad.bindAll fun _ _ => Bad.bindAll fun _ _ => Bad.bindAll fun _ _ => Bad.bindAll fun _ _ =>
      weightSandwich_bad hb ..) _

theorem jTmjpWeightDiag_bad (val m : Tensor α) : Bad (jTmjpWeightDiag cfg bias x val m) := by
  refine Bad.bindAll fun d hd => Bad.bindAll fun d' _ => Bad.bindAll fun _ _ => Bad.bindAll fun _ _ => Bad.bindAll fun _ _ => ?_
  exact (weightDiagKernel_bad hb (dims4_pos hx hd) ..).bind

theorem jTmjp_bad (val m : Option (Tensor α)) (fd td db : Bool) : Bad (jTmjp cfg W bias x val m .weight fd td db) := by
  refine Bad.bindAll fun val _ => ?_
  cases m with
  | none =>
    cases td
    · exact Bad.bindAll fun _ _ => (jTmjpWeightFull_bad hb hx ..).map
    · exact (jTmjpWeightDiag_bad hb hx ..).map
  | some m =>
    cases fd <;> cases td
    · exact (jTmjpWeightFull_bad hb hx ..).map
    · exact (jTmjpWeightFull_bad hb hx ..).bind
    · exact Bad.bindAll fun _ _ => (jTmjpWeightFull_bad hb hx ..).map
    · exact (jTmjpWeightDiag_bad hb hx ..).map

end Conv2d
end NNJ
