import Verif.Props.RoundCols
import Verif.Proofs.RoundAt

/-!
# C85: samples do not interact, in any arithmetic
-/

namespace NNJ.Props
open Tensor

section
variable {β : Type} [Zero β] [One β] [Add β] [Sub β] [Mul β] [Neg β] [Div β] [NatCast β] [LT β] [DecidableLT β] [Trans β]
variable {s s' : List Nat} {n k p m : Nat} {N : Net s n s' k p} {B B' r : Nat} {sf sg : Store β} {x x' : Tensor β}

/-- C85: in any arithmetic (rounding, infinities and NaN included; `f` is any map to the reals, used only to speak of the shapes of the parameters) the output for
a sample does not depend on the other samples of the batch, their number, its place among them, or on earlier calls. -/
theorem C85_forward {f : β → ℝ} (hN : N.ReluSeq m) (h : N.Ok (sf.image f)) (h' : N.Ok (sg.image f)) (hp : sg.param = sf.param) (hx : x.shape = B :: s)
    (hx' : x'.shape = B' :: s) (b : Fin B) (b' : Fin B') (he : SampleEq b b' n x x') (q : ℝ → β) (fn : (ℝ → ℝ) → β → β) :
    ∃ y y' sf' sg', (N.modIn q fn).forward x sf = (.ok y, sf') ∧ (N.modIn q fn).forward x' sg = (.ok y', sg') ∧ y.shape = B :: s' ∧ y'.shape = B' :: s' ∧
      SampleEq b b' k y y' := by
  obtain ⟨y, sf', h1, h2, -⟩ := any_caches hN h b.pos hx q fn
  obtain ⟨y', sg', h1', h2', -⟩ := any_caches hN h' b'.pos hx' q fn
  exact ⟨y, y', sf', sg', h1, h1', h2, h2', N.fwdAt f q fn b.pos b'.pos hN hp h.wired.shapes hx hx' he h1 h1'⟩

/-- C85: nor does jvp wrt the input. -/
theorem C85_jvp {f : β → ℝ} (hN : N.ReluSeq m) (h : N.Ok (sf.image f)) (h' : N.Ok (sg.image f)) (hp : sg.param = sf.param) (hx : x.shape = B :: s)
    (hx' : x'.shape = B' :: s) (b : Fin B) (b' : Fin B') (he : SampleEq b b' n x x') (q : ℝ → β) (fn : (ℝ → ℝ) → β → β) {v v' : Tensor β}
    (hv : v.shape = [B, n]) (hv' : v'.shape = [B', n]) (hev : SampleEq b b' n v v') :
    ∃ g g' sf' sg', (N.modIn q fn).jvp x none v .input sf = (.ok (some g), sf') ∧ (N.modIn q fn).jvp x' none v' .input sg = (.ok (some g'), sg') ∧
      g.shape = [B, k] ∧ g'.shape = [B', k] ∧ SampleEq b b' k g g' := by
  obtain ⟨y, y', t, t', h1, h1', h2, h2', ey⟩ := C85_forward hN h h' hp hx hx' b b' he q fn
  have col : ∀ {A : Nat} {u : Tensor β}, u.shape = [A, n] → IsCol A n 1 0 ⟨[A, n, 1], u.data⟩ u := fun {A u} hu =>
    ⟨rfl, hu, fun a c => by rw [get3 rfl, get2 hu, Nat.mul_one, Nat.mul_one, Nat.add_zero]⟩
  obtain ⟨_, _, -, H⟩ := C84_columns (r := 1) (A := ⟨[B, n, 1], v.data⟩) hN h b.pos hx q fn
  obtain ⟨_, g, s1, -, -, a1, -⟩ := H 0 v (col hv)
  obtain ⟨_, _, -, H'⟩ := C84_columns (r := 1) (A := ⟨[B', n, 1], v'.data⟩) hN h' b'.pos hx' q fn
  obtain ⟨_, g', t1, -, -, a1', -⟩ := H' 0 v' (col hv')
  have e := (N.jmp_val_none q fn hN h1 v v).2
  have e' := (N.jmp_val_none q fn hN h1' v' v').2
  obtain ⟨c1, c2, c3, -⟩ := N.jvpAt f q fn b.2 b'.2 hN hp h.wired.shapes hx hx' h2 h2' hv hv' he ey hev (e ▸ a1) (e' ▸ a1')
  exact ⟨g, g', s1, t1, a1, a1', c1, c2, c3⟩

/-- C85: nor does jmp wrt the input, column by column. -/
theorem C85_jmp {f : β → ℝ} (hN : N.ReluSeq m) (h : N.Ok (sf.image f)) (h' : N.Ok (sg.image f)) (hp : sg.param = sf.param) (hx : x.shape = B :: s)
    (hx' : x'.shape = B' :: s) (b : Fin B) (b' : Fin B') (he : SampleEq b b' n x x') (q : ℝ → β) (fn : (ℝ → ℝ) → β → β) {A A' : Tensor β}
    (hA : A.shape = [B, n, r]) (hA' : A'.shape = [B', n, r]) (j : Fin r) (heA : ∀ c : Fin n, A.get [↑b, ↑c, ↑j] = A'.get [↑b', ↑c, ↑j]) :
    ∃ G G' sf' sg', (N.modIn q fn).jmp x none (some A) .input sf = (.ok (some G), sf') ∧ (N.modIn q fn).jmp x' none (some A') .input sg = (.ok (some G'), sg') ∧
      G.shape = [B, k, r] ∧ G'.shape = [B', k, r] ∧ ∀ c : Fin k, G.get [↑b, ↑c, ↑j] = G'.get [↑b', ↑c, ↑j] := by
  have col : ∀ {C : Nat} {M : Tensor β}, M.shape = [C, n, r] → IsCol C n r j M (ofFn [C, n] fun idx => M.get [idx.getD 0 0, idx.getD 1 0, j]) := fun {C M} hM =>
    ⟨hM, rfl, fun a c => by rw [get_ofFn _ (by simp)]; simp only [List.getD_cons_succ, List.getD_cons_zero]⟩
  obtain ⟨_, _, -, H⟩ := C84_columns (r := r) (A := A) hN h b.pos hx q fn
  obtain ⟨G, g, s1, a0, -, a1, -, a2, -⟩ := H j _ (col hA)
  obtain ⟨_, _, -, H'⟩ := C84_columns (r := r) (A := A') hN h' b'.pos hx' q fn
  obtain ⟨G', g', t1, b0, -, b1, -, b2, -⟩ := H' j _ (col hA')
  obtain ⟨u, u', _, _, c1, c1', c2, c2', c3⟩ := C85_jvp hN h h' hp hx hx' b b' he q fn (v := ofFn [B, n] fun idx => A.get [idx.getD 0 0, idx.getD 1 0, j])
    (v' := ofFn [B', n] fun idx => A'.get [idx.getD 0 0, idx.getD 1 0, j]) rfl rfl (fun c hc => by
      have e1 := (col hA).2.2 b ⟨c, hc⟩
      have e2 := (col hA').2.2 b' ⟨c, hc⟩
      rw [get2 (t := ofFn [B, n] _) rfl] at e1
      rw [get2 (t := ofFn [B', n] _) rfl] at e2
      rw [← e1, ← e2]
      exact heA ⟨c, hc⟩)
  rw [a1] at c1
  rw [b1] at c1'
  injection c1 with c1 _
  injection c1 with c1
  injection c1 with c1
  injection c1' with c1' _
  injection c1' with c1'
  injection c1' with c1'
  subst c1 c1'
  refine ⟨G, G', s1, t1, a0, b0, a2.1, b2.1, fun c => ?_⟩
  rw [a2.2.2 b c, b2.2.2 b' c, get2 c2, get2 c2']
  exact c3 c c.2
end

/-- the network of C82 in single precision: a batch of three, and its last sample alone -/
example (x x' : Tensor (Bin 23)) (hx : x.shape = [3, 2]) (hx' : x'.shape = [1, 2]) (he : SampleEq 2 0 2 x x') :
    ∃ (y y' : Tensor (Bin 23)) (sf' sg' : Store (Bin 23)),
      (rvNet.modIn (Bin.near 23) (fun f a => Bin.near 23 (f a.1))).forward x (rvStore 23) = (.ok y, sf') ∧
      (rvNet.modIn (Bin.near 23) (fun f a => Bin.near 23 (f a.1))).forward x' (rvStore 23) = (.ok y', sg') ∧ SampleEq 2 0 1 y y' := by
  obtain ⟨y, y', sf', sg', h1, h2, -, -, h3⟩ := C85_forward (β := Bin 23) (m := 3) (N := rvNet) (by simp [rvNet, Net.ReluSeq, Chain.ReluSeq]) (rvNet_ok 23) (rvNet_ok 23) rfl hx hx'
    (2 : Fin 3) (0 : Fin 1) he (Bin.near 23) (fun f a => Bin.near 23 (f a.1))
  exact ⟨y, y', sf', sg', h1, h2, h3⟩

/-- a batch whose first sample is NaN: the second sample is that of a batch without NaN -/
example : SampleEq 1 0 2 (⟨[2, 2], fun j => if j < 2 then .nan else .fin 1⟩ : Tensor (NNJ.Fl 5)) ⟨[1, 2], fun _ => .fin 1⟩ := by
  intro c _
  simp only [show ¬ (1 * 2 + c < 2) by omega, if_false]

/-- the same network: jvp and jmp -/
example (x x' v v' A A' : Tensor (Bin 23)) (hx : x.shape = [3, 2]) (hx' : x'.shape = [1, 2]) (he : SampleEq 2 0 2 x x') (hv : v.shape = [3, 2])
    (hv' : v'.shape = [1, 2]) (hev : SampleEq 2 0 2 v v') (hA : A.shape = [3, 2, 4]) (hA' : A'.shape = [1, 2, 4])
    (heA : ∀ c : Fin 2, A.get [2, ↑c, 1] = A'.get [0, ↑c, 1]) :
    (∃ (g g' : Tensor (Bin 23)) (sf' sg' : Store (Bin 23)),
      (rvNet.modIn (Bin.near 23) (fun f a => Bin.near 23 (f a.1))).jvp x none v .input (rvStore 23) = (.ok (some g), sf') ∧
      (rvNet.modIn (Bin.near 23) (fun f a => Bin.near 23 (f a.1))).jvp x' none v' .input (rvStore 23) = (.ok (some g'), sg') ∧ SampleEq 2 0 1 g g') ∧
    ∃ (G G' : Tensor (Bin 23)) (sf' sg' : Store (Bin 23)),
      (rvNet.modIn (Bin.near 23) (fun f a => Bin.near 23 (f a.1))).jmp x none (some A) .input (rvStore 23) = (.ok (some G), sf') ∧
      (rvNet.modIn (Bin.near 23) (fun f a => Bin.near 23 (f a.1))).jmp x' none (some A') .input (rvStore 23) = (.ok (some G'), sg') ∧
      ∀ c : Fin 1, G.get [2, ↑c, 1] = G'.get [0, ↑c, 1] := by
  have hN : rvNet.ReluSeq 3 := by simp [rvNet, Net.ReluSeq, Chain.ReluSeq]
  refine ⟨?_, ?_⟩
  · obtain ⟨g, g', sf', sg', h1, h2, -, -, h3⟩ := C85_jvp (β := Bin 23) (N := rvNet) hN (rvNet_ok 23) (rvNet_ok 23) rfl hx hx'
      (2 : Fin 3) (0 : Fin 1) he (Bin.near 23) (fun f a => Bin.near 23 (f a.1)) hv hv' hev
    exact ⟨g, g', sf', sg', h1, h2, h3⟩
  · obtain ⟨G, G', sf', sg', h1, h2, -, -, h3⟩ := C85_jmp (β := Bin 23) (N := rvNet) hN (rvNet_ok 23) (rvNet_ok 23) rfl hx hx'
      (2 : Fin 3) (0 : Fin 1) he (Bin.near 23) (fun f a => Bin.near 23 (f a.1)) hA hA' (1 : Fin 4) heA
    exact ⟨G, G', sf', sg', h1, h2, h3⟩

end NNJ.Props
