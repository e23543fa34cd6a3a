import Verif.Spec.ChainRule
import Verif.Proofs.NetFacts

/-!
# Calls on the layers of a chain, one after the other
-/

namespace NNJ
open Matrix Tensor

theorem wl_append {p q : Nat} (u : Fin p → ℝ) (v : Fin q → ℝ) : wl (Fin.append u v) = u := by
  funext i; simp [wl]
theorem wr_append {p q : Nat} (u : Fin p → ℝ) (v : Fin q → ℝ) : wr (Fin.append u v) = v := by
  funext i; simp [wr]

theorem layerJacobians_run {st : Store ℝ} {B : Nat} {x : Tensor ℝ} {id : Nat} (hB : 0 < B) : {s s' : List Nat} → {n k p l : Nat} →
    (c : Chain s n s' k p l) → c.ids.Nodup → c.Wired id st → {X : Fin B → Fin n → ℝ} → IsBatch x B s n X →
    ∃ v, IsBatch v B s' k (fun b => c.sem.f (c.w st) (X b)) ∧
      LayerJacobians st c x v (fun b => c.sem.J (c.w st) (X b)) (fun b => c.sem.JW (c.w st) (X b))
  | _, _, _, _, _, _, .nil s n hs hn, _, _, X, hx => by
    refine ⟨x, by simpa only [Chain.sem, Sem.id] using hx, ?_⟩
    have : (fun b : Fin B => (Chain.nil s n hs hn).sem.JW ((Chain.nil s n hs hn).w st) (X b)) = fun _ _ => Fin.elim0 := by
      funext b i j; exact j.elim0
    rw [this]
    simpa only [Chain.sem, Sem.id] using LayerJacobians.nil s n hs hn x
  | _, _, _, _, _, _, .snoc (q := q) c m, hnd, hw, X, hx => by
    rw [Chain.ids] at hnd
    rw [Chain.Wired] at hw
    obtain ⟨v, hv, ih⟩ := layerJacobians_run hB c (List.nodup_append.1 hnd).1 hw.1 hx
    have hm : m.Ok st := ⟨(List.nodup_append.1 hnd).2.1, hw.2.1⟩
    obtain ⟨v', hv', hV⟩ := hm.forward hB hv
    obtain ⟨jt, hj, hJ⟩ := hm.jacI hB hv
    have e := wl_append (c.w st) (m.w st)
    have e' := wr_append (c.w st) (m.w st)
    refine ⟨v', by simpa only [Chain.sem, Chain.w, Sem.comp, e, e'] using hV, ?_⟩
    have hW : ∃ jw, 0 < q → Returns (m.mod.jacobian v none .weight) st (some jw) ∧ IsMat jw B _ _ fun b => m.JW st (c.sem.f (c.w st) (X b)) := by
      by_cases hq : 0 < q
      · obtain ⟨jw, h⟩ := hm.jacW hB hv hq
        exact ⟨jw, fun _ => h⟩
      · exact ⟨x, fun h => absurd h hq⟩
    obtain ⟨jw, hW⟩ := hW
    have := LayerJacobians.snoc ih hv' hj hJ hW
    simp only [Chain.sem, Chain.w, Sem.comp, e, e']
    exact this

end NNJ
