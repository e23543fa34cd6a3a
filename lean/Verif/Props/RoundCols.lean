import Verif.Props.RoundRows
import Verif.Proofs.RoundColsW

/-!
# C84: jmp, column by column
-/

namespace NNJ.Props
open Tensor

section
variable {β : Type} [Zero β] [One β] [Add β] [Sub β] [Mul β] [Neg β] [Div β] [NatCast β] [LT β] [DecidableLT β] [Trans β]
variable {s s' : List Nat} {n k p m : Nat} {N : Net s n s' k p} {B r : Nat} {sf : Store β} {x A : Tensor β}

/-- C84: in any arithmetic column `j` of jmp with a matrix wrt the input is jvp with column `j` of that matrix, bit for bit, for networks of Linear, ReLU,
Flatten, Reshape and Sequential.  Both calls leave the same state, with the same parameters. -/
theorem C84_columns {f : β → ℝ} (hN : N.ReluSeq m) (h : N.Ok (sf.image f)) (hB : 0 < B) (hx : x.shape = B :: s) (q : ℝ → β) (fn : (ℝ → ℝ) → β → β) :
    ∃ y sf', (N.modIn q fn).forward x sf = (.ok y, sf') ∧ ∀ (j : Fin r) (v : Tensor β), IsCol B n r j A v →
      ∃ G g s1, (N.modIn q fn).jmp x none (some A) .input sf = (.ok (some G), s1) ∧ (N.modIn q fn).jmp x (some y) (some A) .input sf = (.ok (some G), s1) ∧
        (N.modIn q fn).jvp x none v .input sf = (.ok (some g), s1) ∧ (N.modIn q fn).jvp x (some y) v .input sf = (.ok (some g), s1) ∧
        IsCol B k r j G g ∧ s1.param = sf.param := by
  obtain ⟨y, sf', hf, hy, -⟩ := any_caches hN h hB hx q fn
  refine ⟨y, sf', hf, fun j v hv => ?_⟩
  obtain ⟨e1, e2⟩ := N.jmp_val_none q fn hN hf A v
  rcases N.colR f q fn m hB j.2 hN h.wired.shapes hx hy hv with ⟨e, s1, h1, -⟩ | ⟨G, g, s1, h1, h2, h3, h4⟩
  · exfalso
    obtain ⟨_, r', -, hr, -⟩ := C75_returns_in_any_number_system (x := x.map f) hN.noPool h hB (.jmp (some (A.map f)) .input) ⟨hN.fwdI, r, hv.1⟩ hx q fn (image_same f sf)
      (c' := .jmp x none (some A) .input) (.jmp .input rfl trivial rfl)
    have : (Use.jmp x none (some A) .input).run (N.modIn q fn) sf = (.error e, s1) := by
      show Prog.bind _ _ sf = _
      simp only [Prog.bind, e1, h1]
    rw [this] at hr
    injection hr
  · exact ⟨G, g, s1, e1.trans h1, h1, e2.trans h2, h2, h3, h4⟩

/-- C84: the same wrt the weights. -/
theorem C84_columns_weights {f : β → ℝ} (hN : N.ReluSeq m) (h : N.Ok (sf.image f)) (hB : 0 < B) (hp : 0 < p) (hx : x.shape = B :: s) (q : ℝ → β)
    (fn : (ℝ → ℝ) → β → β) :
    ∃ y sf', (N.modIn q fn).forward x sf = (.ok y, sf') ∧ ∀ (j : Fin r) (v : Tensor β), IsCol B p r j A v →
      ∃ G g s1, (N.modIn q fn).jmp x none (some A) .weight sf = (.ok (some G), s1) ∧ (N.modIn q fn).jmp x (some y) (some A) .weight sf = (.ok (some G), s1) ∧
        (N.modIn q fn).jvp x none v .weight sf = (.ok (some g), s1) ∧ (N.modIn q fn).jvp x (some y) v .weight sf = (.ok (some g), s1) ∧
        IsCol B k r j G g ∧ s1.param = sf.param := by
  obtain ⟨y, sf', hf, hy, -⟩ := any_caches hN h hB hx q fn
  refine ⟨y, sf', hf, fun j v hv => ?_⟩
  obtain ⟨e1, e2⟩ := N.jmpW_val_none q fn hN hf A v
  rcases N.colW f q fn m hB j.2 hN h.wired.shapes hx hy hv with ⟨e, s1, h1, -⟩ | ⟨Go, go, s1, h1, h2, h3, h4⟩
  · exfalso
    obtain ⟨_, r', -, hr, -⟩ := C75_returns_in_any_number_system (x := x.map f) hN.noPool h hB (.jmp (some (A.map f)) .weight) ⟨hN.fwdI, hN.fwdW, r, hv.1⟩ hx q fn
      (image_same f sf) (c' := .jmp x none (some A) .weight) (.jmp .weight rfl trivial rfl)
    have : (Use.jmp x none (some A) .weight).run (N.modIn q fn) sf = (.error e, s1) := by
      show Prog.bind _ _ sf = _
      simp only [Prog.bind, e1, h1]
    rw [this] at hr
    injection hr
  · cases Go with
    | none =>
      cases go with
      | none => exact absurd (show p = 0 from h3) (by omega)
      | some _ => exact h3.elim
    | some G =>
      cases go with
      | none => exact h3.elim
      | some g => exact ⟨G, g, s1, e1.trans h1, h1, e2.trans h2, h2, h3, h4⟩
end

/-- the network of C82 in single precision, a matrix of four columns for its twelve weights -/
example (x A v : Tensor (Bin 23)) (hx : x.shape = [3, 2]) (hv : IsCol 3 12 4 1 A v) :
    ∃ (s1 : Store (Bin 23)) (G g : Tensor (Bin 23)),
      (rvNet.modIn (Bin.near 23) (fun f a => Bin.near 23 (f a.1))).jmp x none (some A) .weight (rvStore 23) = (.ok (some G), s1) ∧
      (rvNet.modIn (Bin.near 23) (fun f a => Bin.near 23 (f a.1))).jvp x none v .weight (rvStore 23) = (.ok (some g), s1) ∧ IsCol 3 1 4 1 G g := by
  obtain ⟨y, sf', -, H⟩ := C84_columns_weights (m := 3) (N := rvNet) (r := 4) (A := A) (by simp [rvNet, Net.ReluSeq, Chain.ReluSeq]) (rvNet_ok 23) (by norm_num)
    (by norm_num) hx (Bin.near 23) (fun f a => Bin.near 23 (f a.1))
  obtain ⟨G, g, s1, h1, -, h2, -, h3, -⟩ := H 1 v hv
  exact ⟨s1, G, g, h1, h2, h3⟩

/-- the network of C82 in single precision, a matrix of four columns -/
example (x A v : Tensor (Bin 23)) (hx : x.shape = [3, 2]) (hv : IsCol 3 2 4 1 A v) :
    ∃ (s1 : Store (Bin 23)) (G g : Tensor (Bin 23)),
      (rvNet.modIn (Bin.near 23) (fun f a => Bin.near 23 (f a.1))).jmp x none (some A) .input (rvStore 23) = (.ok (some G), s1) ∧
      (rvNet.modIn (Bin.near 23) (fun f a => Bin.near 23 (f a.1))).jvp x none v .input (rvStore 23) = (.ok (some g), s1) ∧ IsCol 3 1 4 1 G g := by
  obtain ⟨y, sf', -, H⟩ := C84_columns (m := 3) (N := rvNet) (r := 4) (A := A) (by simp [rvNet, Net.ReluSeq, Chain.ReluSeq]) (rvNet_ok 23) (by norm_num) hx
    (Bin.near 23) (fun f a => Bin.near 23 (f a.1))
  obtain ⟨G, g, s1, h1, -, h2, -, h3, -⟩ := H 1 v hv
  exact ⟨s1, G, g, h1, h2, h3⟩

/-- every matrix has such a column -/
example : IsCol 3 2 4 1 (⟨[3, 2, 4], fun j => (j : ℝ)⟩) ⟨[3, 2], fun j => (j * 4 + 1 : ℝ)⟩ :=
  ⟨rfl, rfl, fun b c => by
    rw [get3 rfl, get2 rfl]
    push_cast
    ring⟩

end NNJ.Props
