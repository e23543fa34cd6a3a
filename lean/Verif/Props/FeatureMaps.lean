import Verif.Proofs.FeatureMaps
import Verif.Props.History

/-!
# C46: what is in `feature_maps`
-/

namespace NNJ
namespace Props
open Matrix

variable {s s' : List Nat} {n k p l id : Nat} {c : Chain s n s' k p (l + 1)} {st : Store ℝ}
variable {B : Nat} {X : Fin B → Fin n → ℝ} {x : Tensor ℝ}

/-- C46: after `forward(x)`, from any state, `feature_maps` is the input `x` and the output of every
layer, in order, and nothing else; the last one is the value returned. -/
theorem C46_forward (h : (Net.seq id c).Ok st) (hB : 0 < B) (hx : IsBatch x B s n X) :
    ∃ y st' E, (Net.seq id c).mod.forward x st = (.ok y, st') ∧ st'.fmaps id = some (x :: E) ∧ E.length = c.mods.length ∧
      LayerByLayer c.mods (x :: E) st' ∧ ∃ v, (x :: E)[c.mods.length]? = some v ∧ TEq v y := by
  obtain ⟨y, st', e, hy, hs, hc, E, hE, hlen, hl⟩ := h.forward_maps hB hx
  obtain ⟨hg, hnd, hw⟩ := h.chain
  have hml : c.mods.length = l + 1 := by rw [← Chain.mchain_mods]; exact c.mchain.mods_length
  have hl' := hl
  rw [← c.mchain.w_of hg hs.param] at hl'
  have := MChain.layerByLayer_of hg (c.mchain.wired_of hg hs.wiring hw.2) hB hl'
  rw [Chain.mchain_mods] at this
  obtain ⟨v, hv, hvb⟩ := MChain.listOk_last hl
  refine ⟨y, st', E, e, hE, by rw [hlen, hml], this, v, by rw [hml]; exact hv, teq_batch h.g.hk hvb ?_⟩
  simp only [Net.mdl] at hy
  exact hy

/-- C46: `jacobian`, `vjp`, `mjp`, `jTmjp` without `val` leave the state exactly as `forward(x)` leaves it. -/
theorem C46_reverse (h : (Net.seq id c).Ok st) (cl : Call) (hr : cl.Resets) (hf : cl.Fits (Net.seq id c) x) :
    (cl.run (Net.seq id c).mod x none st).2 = ((Net.seq id c).mod.forward x st).2 := by
  obtain ⟨B, X, hB, hx, hv⟩ := hf
  exact h.reverse_state hB hx cl hr hv

/-- C46: `jvp` and `jmp` do not start a new list: whatever is in `feature_maps` stays, and the outputs of
all layers (not the input) are appended. -/
theorem C46_append (h : (Net.seq id c).Ok st) {L : List (Tensor ℝ)} (hL : st.fmaps id = some L) (cl : Call) (hr : cl.Appends)
    (hf : cl.Fits (Net.seq id c) x) (val : Option (Tensor ℝ)) :
    ∃ r st' E, cl.run (Net.seq id c).mod x val st = (.ok r, st') ∧ st'.fmaps id = some (L ++ E) ∧ E.length = c.mods.length ∧
      LayerByLayer c.mods (x :: E) st' := by
  obtain ⟨B, X, hB, hx, hv⟩ := hf
  obtain ⟨r, st', e, hs, E, hE, hlen, hl⟩ := h.forwardMode_maps hL hB hx cl hr hv val
  obtain ⟨hg, hnd, hw⟩ := h.chain
  have hml : c.mods.length = l + 1 := by rw [← Chain.mchain_mods]; exact c.mchain.mods_length
  rw [← c.mchain.w_of hg hs.param] at hl
  have := MChain.layerByLayer_of hg (c.mchain.wired_of hg hs.wiring hw.2) hB hl
  rw [Chain.mchain_mods] at this
  exact ⟨r, st', E, e, hE, by rw [hlen, hml], this⟩

/-- C46: the list grows with every forward-mode product, at any inputs, and nothing is ever removed. -/
theorem C46_grows (h : (Net.seq id c).Ok st) {L : List (Tensor ℝ)} (hL : st.fmaps id = some L)
    (calls : List (Tensor ℝ × Option (Tensor ℝ) × Call)) (hc : ∀ a ∈ calls, a.2.2.Appends ∧ a.2.2.Fits (Net.seq id c) a.1) :
    ∃ E, (runHistory (calls.map fun a => (⟨Net.seq id c⟩, .method a.1 a.2.1 a.2.2)) st).fmaps id = some (L ++ E) ∧
      E.length = calls.length * c.mods.length := by
  induction calls generalizing st L with
  | nil => exact ⟨[], by simpa [runHistory] using hL, by simp⟩
  | cons a calls ih =>
    obtain ⟨hr, hf⟩ := hc a (by simp)
    obtain ⟨r, st', E, e, hE, hlen, -⟩ := C46_append h hL a.2.2 hr hf a.2.1
    have h' : (Net.seq id c).Ok st' := by
      have := C17_ok h [(⟨Net.seq id c⟩, .method a.1 a.2.1 a.2.2)]
      simpa only [runHistory, Event.after, e] using this
    obtain ⟨E', hE', hlen'⟩ := ih h' hE fun b hb => hc b (by simp [hb])
    refine ⟨E ++ E', ?_, ?_⟩
    · simp only [List.map_cons, runHistory, Event.after, e]
      rw [hE', List.append_assoc]
    · rw [List.length_append, hlen, hlen', List.length_cons, Nat.succ_mul, Nat.add_comm]

/-- C46: so the memory held by a Sequential is not bounded in terms of the network and the input: any
number of entries is exceeded by repeating one `jvp`. -/
theorem C46_unbounded (h : (Net.seq id c).Ok st) (hF : (Net.seq id c).FwdI) (hB : 0 < B) (hx : IsBatch x B s n X) {u : Tensor ℝ}
    (hu : u.shape = [B, n]) (bound : Nat) :
    ∃ times L, (runHistory (List.replicate times (⟨Net.seq id c⟩, .method x none (.jvp u .input))) st).fmaps id = some L ∧ bound < L.length := by
  obtain ⟨L, hL⟩ := Option.isSome_iff_exists.1 (h.chain.2.2.1)
  obtain ⟨E, hE, hlen⟩ := C46_grows h hL (List.replicate (bound + 1) (x, none, .jvp u .input)) fun a ha => by
    rw [List.eq_of_mem_replicate ha]
    exact ⟨trivial, B, X, hB, hx, hF, hu⟩
  refine ⟨bound + 1, L ++ E, ?_, ?_⟩
  · rw [List.map_replicate] at hE
    exact hE
  · rw [List.length_append, hlen, List.length_replicate]
    have hml : 0 < c.mods.length := by rw [← Chain.mchain_mods, c.mchain.mods_length]; omega
    have := Nat.le_mul_of_pos_right (bound + 1) hml
    omega

example : exNet.Ok exStore ∧ 0 < 2 ∧ IsBatch exInput 2 [2] 2 (fun b i => (2 * b + i : ℝ)) := ⟨exNet_ok, by norm_num, exInput_isBatch⟩
example : Call.Resets (.vjp ⟨[2, 1], fun _ => 1⟩ .weight) ∧ Call.Fits exNet exInput (.vjp ⟨[2, 1], fun _ => 1⟩ .weight) :=
  ⟨trivial, 2, _, by norm_num, exInput_isBatch, rfl⟩
example : exStore.fmaps 0 = some [] ∧ Call.Appends (.jvp exInput .input) ∧ Call.Fits exNet exInput (.jvp exInput .input) ∧ exNet.FwdI := by
  have hF : exNet.FwdI := by simp [exNet, Net.FwdI, Chain.FwdI]
  exact ⟨by simp [exStore], trivial, ⟨2, _, by norm_num, exInput_isBatch, hF, rfl⟩, hF⟩

/-- C46: on a freshly constructed Sequential (`feature_maps = []`), after one forward-mode product, which
fills the list only with the outputs, `vjp` with `val` fails with an IndexError, for every network. -/
theorem C46_fresh_raises (h : (Net.seq id c).Ok st) (hL : st.fmaps id = some []) (cl : Call) (hr : cl.Appends)
    (hf : cl.Fits (Net.seq id c) x) (val : Option (Tensor ℝ)) (x' v u : Tensor ℝ) (wrt : Wrt) (hw : wrt = .input ∨ wrt = .weight) :
    ((Net.seq id c).mod.vjp x' (some v) u wrt (cl.run (Net.seq id c).mod x val st).2).1 = .error .index := by
  obtain ⟨r, st', E, e, hE, hlen, -⟩ := C46_append h hL cl hr hf val
  rw [e]
  rw [List.nil_append] at hE
  have hml : c.mods.length = l + 1 := by rw [← Chain.mchain_mods]; exact c.mchain.mods_length
  obtain ⟨m, hm⟩ : ∃ m, c.mods[l]? = some m := ⟨c.mods[l], List.getElem?_eq_getElem (by omega)⟩
  obtain ⟨a, ha⟩ : ∃ a, E[l]? = some a := ⟨E[l], List.getElem?_eq_getElem (by omega)⟩
  have h1 : Sequential.child c.mods l st' = (.ok m, st') := by simp only [Sequential.child, hm]
  have h2 := MChain.fmap_of hE ha
  have h3 : Sequential.fmap id (l + 1) st' = (.error .index, st') := by
    have : E[l + 1]? = none := List.getElem?_eq_none (by omega)
    simp only [Sequential.fmap, hE, this]
  simp only [Net.mod]
  rcases hw with rfl | rfl
  · have : Sequential.vjpInput id c.mods c.mods.length u st' = (.error .index, st') := by
      rw [hml, Sequential.vjpInput, Prog.bind_ok h1, Prog.bind_ok h2, Prog.bind_error h3]
    exact congrArg Prod.fst (Prog.bind_error (f := fun r => (pure (some r) : Prog ℝ _)) this)
  · have : Sequential.vjpWeight id c.mods c.mods.length u [] st' = (.error .index, st') := by
      rw [hml, Sequential.vjpWeight, Prog.bind_ok h1, Prog.bind_ok h2, Prog.bind_error h3]
    exact congrArg Prod.fst (Prog.bind_error (f := fun vs => (liftM (Sequential.catOrNone 1 vs) : Prog ℝ _)) this)

/-- `Sequential(Sinusoidal())` -/
noncomputable def sinNet : Net [1] 1 [1] 1 (0 + 0) :=
  .seq 0 (.snoc (.nil [1] 1 rfl (by norm_num)) (.act .sinusoidal 1 [1] 1 rfl (by norm_num)))

/-- its freshly constructed state -/
noncomputable def sinStore : Store ℝ where
  param _ := ⟨[], fun _ => 0⟩
  fmaps i := if i = 0 then some [] else none
  pidx _ := none
  hooks i := if i = 1 then [0] else []

theorem sinNet_ok : sinNet.Ok sinStore := by
  refine ⟨by simp only [sinNet, Net.ids, Chain.ids]; decide, ?_⟩
  simp [sinNet, Net.Wired, Chain.Wired, sinStore, Net.mod, Activation.toMod, PureLayer.toMod]

theorem sinNet_fits (a : ℝ) : Call.Fits sinNet (num a) (.jvp (num 1) .input) :=
  ⟨1, _, Nat.one_pos, num_isBatch a, by simp [sinNet, Net.FwdI, Chain.FwdI], rfl⟩

example : sinNet.Ok sinStore ∧ sinStore.fmaps 0 = some [] ∧ Call.Appends (.jvp (num 1) .input) ∧
    Call.Fits sinNet (num 1) (.jvp (num 1) .input) := ⟨sinNet_ok, by simp [sinStore], trivial, sinNet_fits 1⟩

/-- C46, a wrong result without an error: on a fresh `Sequential(Sinusoidal())`, two calls
`jvp(pi, None, 1)`, then `vjp(pi, val, 1)` is `cos(sin(pi)) = 1`, while the derivative
`cos(pi) = -1` is what `vjp(pi, None, 1)` returns. -/
theorem C46_fresh_wrong (val : Tensor ℝ) : ∃ r1 st1 r2 st2 t t',
    sinNet.mod.jvp (num Real.pi) none (num 1) .input sinStore = (.ok r1, st1) ∧
    sinNet.mod.jvp (num Real.pi) none (num 1) .input st1 = (.ok r2, st2) ∧
    Returns (sinNet.mod.vjp (num Real.pi) (some val) (num 1) .input) st2 (some t) ∧ IsVec t 1 1 (fun _ _ => 1) ∧
    Returns (sinNet.mod.vjp (num Real.pi) none (num 1) .input) st2 (some t') ∧ IsVec t' 1 1 (fun _ _ => -1) := by
  have hF : sinNet.FwdI := by simp [sinNet, Net.FwdI, Chain.FwdI]
  have hV : Call.Valid sinNet 1 (.jvp (num 1) .input) := ⟨hF, rfl⟩
  have step : ∀ {st : Store ℝ} {L : List (Tensor ℝ)}, sinNet.Ok st → st.fmaps 0 = some L →
      ∃ r st' v, sinNet.mod.jvp (num Real.pi) none (num 1) .input st = (.ok r, st') ∧ sinNet.Ok st' ∧ st'.fmaps 0 = some (L ++ [v]) ∧
        IsBatch v 1 [1] 1 fun _ _ => 0 := by
    intro st L h hL
    obtain ⟨r, st', e, hs, E, hE, hlen, hl⟩ := Net.Ok.forwardMode_maps (st := st) (id := 0) h hL Nat.one_pos (num_isBatch Real.pi) (.jvp (num 1) .input) trivial hV none
    obtain ⟨v, rfl⟩ := List.length_eq_one_iff.1 hlen
    simp only [Chain.mchain, MChain.listOk] at hl
    obtain ⟨-, v', hv', hb⟩ := hl
    cases hv'
    change ((sinNet.mod.jvp (num Real.pi) none (num 1) .input >>= fun r => pure (PyVal.ofOption r)) st) = _ at e
    rcases hj : sinNet.mod.jvp (num Real.pi) none (num 1) .input st with ⟨r', s'⟩
    rw [Prog.bind_run, hj] at e
    cases r' with
    | error _ => cases e
    | ok r' =>
      cases e
      refine ⟨r', st', v, rfl, h.of_wiring hs.wiring, hE, hb.congr fun b i => ?_⟩
      simp [Sem.comp, Net.mdl, Mdl.leaf, Act.sem, Sem.leaf0, Sem.leaf, Act.fn, MChain.S, Sem.id]
  obtain ⟨r1, st1, v1, e1, h1, hL1, hb1⟩ := step (L := []) sinNet_ok (by simp [sinStore])
  obtain ⟨r2, st2, v2, e2, h2, hL2, hb2⟩ := step h1 hL1
  -- the layer at `sin(pi)`
  let N1 : Net [1] 1 [1] 1 0 := .act .sinusoidal 1 [1] 1 rfl (by norm_num)
  have hN1 : N1.Ok st2 := ⟨by simp [N1, Net.ids], by simp [N1, Net.Wired]⟩
  have hv2 : N1.mdl.VOk st2 (fun (_ : Fin 1) _ => (0 : ℝ)) v2 := Or.inr <| hb2.congr fun b i => by
    simp [N1, Mdl.Y, Net.mdl, Mdl.leaf, Act.sem, Sem.leaf0, Sem.leaf, Act.fn]
  have hr := (hN1.g.vjpI hN1.w Nat.one_pos hb1 (num_isVec 1)).1 v2 hv2 (by simp [N1, Net.mdl, Mdl.leaf])
  rw [Net.mdl_m, Net.mdl_J] at hr
  obtain ⟨r3, s3, ht, hT, rfl⟩ := hr
  cases r3 with
  | none => exact hT.elim
  | some t =>
  have hmod : sinNet.mod = Sequential.mod 0 true [N1.mod] := by simp only [sinNet, Net.mod, Chain.mods, List.nil_append, N1]
  obtain ⟨t', ht', hT'⟩ := h2.vjpI Nat.one_pos (num_isBatch Real.pi) (num_isVec 1)
  refine ⟨r1, st1, r2, s3, t, t', e1, e2, ?_, ?_, ht', ?_⟩
  · have : Sequential.vjpInput 0 [N1.mod] 1 (num 1) s3 = (.ok t, s3) := by
      rw [Sequential.vjpInput, Prog.bind_ok (p := Sequential.child [N1.mod] 0) (b := N1.mod) (s' := s3) rfl,
        Prog.bind_ok (MChain.fmap_of (t := v1) hL2 rfl), Prog.bind_ok (MChain.fmap_of (t := v2) hL2 rfl), Prog.bind_ok ht]
      rfl
    rw [Returns, hmod]
    show (Sequential.vjp 0 true [N1.mod] (num Real.pi) (some val) (num 1) .input s3).1 = _
    simp only [Sequential.vjp]
    exact congrArg Prod.fst (Prog.bind_ok (b := t) (s' := s3) this)
  · refine IsVec.congr hT fun b i => ?_
    fin_cases i
    simp [N1, Net.J, Net.sem, Act.sem, Sem.leaf0, Sem.leaf, Act.deriv, vecMul, dotProduct]
  · refine hT'.congr fun b i => ?_
    fin_cases i
    simp [sinNet, Net.J, Net.sem, Chain.sem, Sem.comp, Sem.id, Act.sem, Sem.leaf0, Sem.leaf, Act.deriv, vecMul, dotProduct]

end Props
end NNJ
