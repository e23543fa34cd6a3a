import Verif.Props.RoundAt
import Verif.Proofs.RoundAtVjp

/-!
# C85: samples do not interact, in any arithmetic: backward products
-/

namespace NNJ.Props
open Tensor

section
variable {β : Type} [Zero β] [One β] [Add β] [Sub β] [Mul β] [Neg β] [Div β] [NatCast β] [LT β] [DecidableLT β] [Trans β]
variable {s s' : List Nat} {n k p m : Nat} {N : Net s n s' k p} {B B' r : Nat} {sf sg : Store β} {x x' : Tensor β}

/-- C85: vjp wrt the input of a sample does not depend on the other samples, although it reads feature maps that the forward pass kept for the whole batch. -/
theorem C85_vjp {f : β → ℝ} (hN : N.ReluSeq m) (h : N.Ok (sf.image f)) (h' : N.Ok (sg.image f)) (hp : sg.param = sf.param) (hh : sg.hooks = sf.hooks)
    (hx : x.shape = B :: s) (hx' : x'.shape = B' :: s) (b : Fin B) (b' : Fin B') (he : SampleEq b b' n x x') (q : ℝ → β) (fn : (ℝ → ℝ) → β → β) {v v' : Tensor β}
    (hv : v.shape = [B, k]) (hv' : v'.shape = [B', k]) (hev : SampleEq b b' k v v') :
    ∃ g g' sf' sg', (N.modIn q fn).vjp x none v .input sf = (.ok (some g), sf') ∧ (N.modIn q fn).vjp x' none v' .input sg = (.ok (some g'), sg') ∧
      g.shape = [B, n] ∧ g'.shape = [B', n] ∧ SampleEq b b' n g g' := by
  obtain ⟨y, sf', h1, h2, h3, h4⟩ := any_caches hN h b.pos hx q fn
  obtain ⟨y', sg', h1', h2', -, h4'⟩ := any_caches hN h' b'.pos hx' q fn
  have ey := N.fwdAt f q fn b.pos b'.pos hN hp h.wired.shapes hx hx' he h1 h1'
  obtain ⟨D, -, hr, hI⟩ := N.fwdRel f q fn b.pos b'.pos hN (D := fun _ => False) ⟨hp, hh, fun _ h => h.elim⟩ h.wired.shapes hx hx' he h1 h1'
  have hS : N.Shapes (sf'.image f) := N.shapes_of (st := sf.image f) (st' := sf'.image f) (fun i => by simp only [Store.image, h3]) h.wired.shapes
  obtain ⟨g, g', a1, a2, a3⟩ := N.vjpAt f q fn b.2 b'.2 hr hN hS hI h4 h4' (x := x) (x' := x') h2 h2' ey hv hv' hev
  exact ⟨g, g', sf', sg', (N.vjp_none q fn hN h1 v).trans a1, (N.vjp_none q fn hN h1' v').trans a2, a3⟩

/-- C85: nor does mjp wrt the input, row by row. -/
theorem C85_mjp {f : β → ℝ} (hN : N.ReluSeq m) (h : N.Ok (sf.image f)) (h' : N.Ok (sg.image f)) (hp : sg.param = sf.param) (hh : sg.hooks = sf.hooks)
    (hx : x.shape = B :: s) (hx' : x'.shape = B' :: s) (b : Fin B) (b' : Fin B') (he : SampleEq b b' n x x') (q : ℝ → β) (fn : (ℝ → ℝ) → β → β) {A A' : Tensor β}
    (hA : A.shape = [B, r, k]) (hA' : A'.shape = [B', r, k]) (i : Fin r) (heA : ∀ c : Fin k, A.get [↑b, ↑i, ↑c] = A'.get [↑b', ↑i, ↑c]) :
    ∃ G G' sf' sg', (N.modIn q fn).mjp x none (some A) .input sf = (.ok (some G), sf') ∧ (N.modIn q fn).mjp x' none (some A') .input sg = (.ok (some G'), sg') ∧
      G.shape = [B, r, n] ∧ G'.shape = [B', r, n] ∧ ∀ c : Fin n, G.get [↑b, ↑i, ↑c] = G'.get [↑b', ↑i, ↑c] := by
  have row : ∀ {C : Nat} {M : Tensor β}, M.shape = [C, r, k] → IsRow C r k i M (ofFn [C, k] fun idx => M.get [idx.getD 0 0, i, idx.getD 1 0]) := fun {C M} hM =>
    ⟨hM, rfl, fun a c => by rw [get_ofFn _ (by simp)]; simp only [List.getD_cons_succ, List.getD_cons_zero]⟩
  obtain ⟨_, s1, -, H⟩ := C84_rows (r := r) (A := A) hN h b.pos hx q fn
  obtain ⟨⟨G, g, a0, -, a1, -, a2⟩, -⟩ := H i _ (row hA)
  obtain ⟨_, t1, -, H'⟩ := C84_rows (r := r) (A := A') hN h' b'.pos hx' q fn
  obtain ⟨⟨G', g', b0, -, b1, -, b2⟩, -⟩ := H' i _ (row hA')
  obtain ⟨u, u', _, _, c1, c1', c2, c2', c3⟩ := C85_vjp hN h h' hp hh hx hx' b b' he q fn (v := ofFn [B, k] fun idx => A.get [idx.getD 0 0, i, idx.getD 1 0])
    (v' := ofFn [B', k] fun idx => A'.get [idx.getD 0 0, i, idx.getD 1 0]) rfl rfl (fun c hc => by
      have e1 := (row hA).2.2 b ⟨c, hc⟩
      have e2 := (row hA').2.2 b' ⟨c, hc⟩
      rw [get2 (t := ofFn [B, k] _) rfl] at e1
      rw [get2 (t := ofFn [B', k] _) rfl] at e2
      rw [← e1, ← e2]
      exact heA ⟨c, hc⟩)
  rw [a1] at c1
  rw [b1] at c1'
  injection c1 with c1 _
  injection c1 with c1
  injection c1 with c1
  injection c1' with c1' _
  injection c1' with c1'
  injection c1' with c1'
  subst c1 c1'
  refine ⟨G, G', s1, t1, a0, b0, a2.1, b2.1, fun c => ?_⟩
  rw [a2.2.2 b c, b2.2.2 b' c, get2 c2, get2 c2']
  exact c3 c c.2
end

/-- the network of C82 in single precision: the last sample of a batch of three, and the same sample alone -/
example (x x' v v' A A' : Tensor (Bin 23)) (hx : x.shape = [3, 2]) (hx' : x'.shape = [1, 2]) (he : SampleEq 2 0 2 x x') (hv : v.shape = [3, 1])
    (hv' : v'.shape = [1, 1]) (hev : SampleEq 2 0 1 v v') (hA : A.shape = [3, 4, 1]) (hA' : A'.shape = [1, 4, 1])
    (heA : ∀ c : Fin 1, A.get [2, 3, ↑c] = A'.get [0, 3, ↑c]) :
    (∃ (g g' : Tensor (Bin 23)) (sf' sg' : Store (Bin 23)),
      (rvNet.modIn (Bin.near 23) (fun f a => Bin.near 23 (f a.1))).vjp x none v .input (rvStore 23) = (.ok (some g), sf') ∧
      (rvNet.modIn (Bin.near 23) (fun f a => Bin.near 23 (f a.1))).vjp x' none v' .input (rvStore 23) = (.ok (some g'), sg') ∧ SampleEq 2 0 2 g g') ∧
    ∃ (G G' : Tensor (Bin 23)) (sf' sg' : Store (Bin 23)),
      (rvNet.modIn (Bin.near 23) (fun f a => Bin.near 23 (f a.1))).mjp x none (some A) .input (rvStore 23) = (.ok (some G), sf') ∧
      (rvNet.modIn (Bin.near 23) (fun f a => Bin.near 23 (f a.1))).mjp x' none (some A') .input (rvStore 23) = (.ok (some G'), sg') ∧
      ∀ c : Fin 2, G.get [2, 3, ↑c] = G'.get [0, 3, ↑c] := by
  have hN : rvNet.ReluSeq 3 := by simp [rvNet, Net.ReluSeq, Chain.ReluSeq]
  refine ⟨?_, ?_⟩
  · obtain ⟨g, g', sf', sg', h1, h2, -, -, h3⟩ := C85_vjp (β := Bin 23) (N := rvNet) hN (rvNet_ok 23) (rvNet_ok 23) rfl rfl hx hx'
      (2 : Fin 3) (0 : Fin 1) he (Bin.near 23) (fun f a => Bin.near 23 (f a.1)) hv hv' hev
    exact ⟨g, g', sf', sg', h1, h2, h3⟩
  · obtain ⟨G, G', sf', sg', h1, h2, -, -, h3⟩ := C85_mjp (β := Bin 23) (N := rvNet) hN (rvNet_ok 23) (rvNet_ok 23) rfl rfl hx hx'
      (2 : Fin 3) (0 : Fin 1) he (Bin.near 23) (fun f a => Bin.near 23 (f a.1)) hA hA' (3 : Fin 4) heA
    exact ⟨G, G', sf', sg', h1, h2, h3⟩

end NNJ.Props
