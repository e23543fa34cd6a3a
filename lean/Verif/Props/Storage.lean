import Verif.Proofs.Storage
import Verif.Props.Weights
import Verif.Props.History
import Verif.Props.Append

/-!
# C55: parameters are views into the vector given to `set_weight`

`torch.nn.utils.vector_to_parameters` (nnj/abstract_jacobian.py:246) makes the parameters views into the given vector.
-/

namespace NNJ.Props
open NNJ Matrix Tensor

variable {s s' t t' : List Nat} {n k p n' k' p' : Nat} {N : Net s n s' k p} {M : Net t n' t' k' p'} {h h1 : Heap ℝ} {w : View}

/-- With storages, every operation does to the values what it does in the model without; `set_weight` writes to no storage; `get_weight` returns
the values and, returning a new storage, changes nothing. -/
theorem C55_refines (h : Heap ℝ) (m : Mod ℝ) (N : AnyNet) (v : View) :
    m.setWeight (h.read v) h.store = ((h.setWeight m v).1, (h.setWeight m v).2.store) ∧ (h.setWeight m v).2.mem = h.mem ∧
    (∀ (e : Event) (he : e.KeepsWeights), ((HeapOp.use N e he).after h).store = e.after N.net.mod h.store) ∧
    ∀ b, (∀ i, (h.view i).buf ≠ b) → (h.getWeight m b).2.store = h.store ∧
      ((h.getWeight m b).1 >>= fun u => pure ((h.getWeight m b).2.read u)) = (m.getWeight h.store).1 := by
  refine ⟨Heap.setLoop_store _ _ _ _, (Heap.setLoop_mem _ _ _ _).1, fun e he => ?_, fun b hb => ?_⟩
  · have := (Grow.event (Grow.net N.net fun _ h => h) h.store e he).param
    simp only [HeapOp.after, Heap.store] at this ⊢
    congr 1
    exact this.symm
  · simp only [Heap.getWeight]
    rcases e : m.getWeight h.store with ⟨r, s1⟩
    cases r with
    | error e => exact ⟨rfl, rfl⟩
    | ok t =>
      constructor
      · simp only [Heap.store, Heap.read]
        congr 1
        funext i
        simp only [if_neg (hb i)]
      · show Except.ok _ = Except.ok t
        simp only [Heap.read, if_true, Nat.zero_add]

/-- After `model.set_weight(w)` and any operations but another `set_weight` on a network that shares parameters with the model, such as
writing to `w` or to the parameters in place, calling `model.set_weight(w)` again changes nothing: the model already has the current entries
of `w`. -/
theorem C55_linked (m : Mod ℝ) (hr : h.setWeight m w = (.ok (), h1)) (os : List HeapOp) (ho : ∀ o ∈ os, o.Spares m.params) :
    (runOps os h1).setWeight m w = (.ok (), runOps os h1) := by
  have hr' : Heap.setLoop w m.parameters 0 h = (.ok (), h1) := hr
  have hl := Heap.setLoop_linked (w := w) (h := h) (p := 0) (dedupFirst_nodup' m.params []).1 (by
    show (Heap.setLoop w m.parameters 0 h).1 = _; rw [hr'])
  rw [show Heap.setLoop w (dedupFirst [] m.params) 0 h = _ from hr'] at hl
  exact (hl.congr fun i hi => runOps_view os h1 ho (mem_of_mem_dedupFirst hi)).setLoop

/-- So `get_weight` returns the current entries of `w`, not those at the time of `set_weight`. -/
theorem C55_live (hN : N.Ok h.store) (hs : N.paramIds.Nodup) (hp : 0 < p) (hr : h.setWeight N.mod w = (.ok (), h1)) {m : Nat} (hw : w.shape = [m])
    (os : List HeapOp) (ho : ∀ o ∈ os, o.Spares N.mod.params) :
    N.Ok (runOps os h1).store ∧ ∃ u, Returns N.mod.getWeight (runOps os h1).store u ∧ IsVec1 u p fun i => ((runOps os h1).read w).data i := by
  have hm : p ≤ m := by
    by_contra hlt
    obtain ⟨st', hst⟩ := C20_short hN hs (v := h.read w) (m := m) hw (by omega)
    have := Heap.setLoop_store w N.mod.parameters 0 h
    rw [show setWeightLoop _ _ _ _ = _ from hst, show Heap.setLoop w N.mod.parameters 0 h = _ from hr] at this
    cases this
  have hk : Keeps h.store (runOps os h1).store := by
    refine Keeps.trans ?_ (runOps_keeps os h1)
    have := (HeapOp.setWeight ⟨N⟩ w).keeps h
    simp only [HeapOp.after, hr] at this
    exact this
  have hok := hN.keeps hk
  obtain ⟨st', hst, hok', u, hu, hU⟩ := C20_set_get hok hs hp (v := (runOps os h1).read w) (m := m) hw hm
  have h2 := Heap.setLoop_store w N.mod.parameters 0 (runOps os h1)
  rw [show Heap.setLoop w N.mod.parameters 0 _ = _ from C55_linked N.mod hr os ho, show setWeightLoop _ _ _ _ = _ from hst] at h2
  have h2 : st' = (runOps os h1).store := congrArg Prod.snd h2
  exact ⟨hok, u, by rw [← h2]; exact hu, hU⟩

/-- In particular `w[j] = a`, at any time later, changes entry `j` of `model.get_weight()` to `a` and no other. -/
theorem C55_write (hN : N.Ok h.store) (hs : N.paramIds.Nodup) (hp : 0 < p) (hr : h.setWeight N.mod w = (.ok (), h1)) {m : Nat} (hw : w.shape = [m])
    (os : List HeapOp) (ho : ∀ o ∈ os, o.Spares N.mod.params) (j : Nat) (a : ℝ) :
    ∃ u u', Returns N.mod.getWeight (runOps os h1).store u ∧ Returns N.mod.getWeight ((runOps os h1).write w.buf (w.off + j) a).store u' ∧
      u.shape = [p] ∧ u'.shape = [p] ∧ ∀ i < p, u'.data i = if i = j then a else u.data i := by
  obtain ⟨-, u, hu, hU⟩ := C55_live hN hs hp hr hw os ho
  obtain ⟨-, u', hu', hU'⟩ := C55_live hN hs hp hr hw (os ++ [.write w.buf (w.off + j) a]) (by
    intro o ho'
    rcases List.mem_append.1 ho' with ho' | ho'
    · exact ho o ho'
    · rw [List.mem_singleton.1 ho']; trivial)
  have e : ∀ (os : List HeapOp) (g : Heap ℝ) (o : HeapOp), runOps (os ++ [o]) g = o.after (runOps os g) := by
    intro os
    induction os with
    | nil => exact fun _ _ => rfl
    | cons _ os ih => exact fun g o => ih _ o
  rw [e] at hu' hU'
  refine ⟨u, u', hu, hu', hU.1, hU'.1, fun i hi => ?_⟩
  have h1 := hU.2 ⟨i, hi⟩
  have h2 := hU'.2 ⟨i, hi⟩
  simp only [HeapOp.after, Heap.write, Heap.read] at h1 h2
  rw [h1, h2]
  by_cases hij : i = j
  · simp [hij]
  · rw [if_neg (by simp; omega), if_neg hij]

/-- Two networks whose weights were set from the same vector keep equal weights whatever is written in place to the vector or to the parameters of
either. -/
theorem C55_shared (hN : N.Ok h.store) (hM : M.Ok h.store) (hs : N.paramIds.Nodup) (hs' : M.paramIds.Nodup) (hd : ∀ i ∈ N.paramIds, i ∉ M.paramIds)
    (hp : 0 < p) (hp' : 0 < p') (hr : h.setWeight N.mod w = (.ok (), h1)) {h2 : Heap ℝ} (hr' : h1.setWeight M.mod w = (.ok (), h2)) {m : Nat} (hw : w.shape = [m])
    (os : List HeapOp) (ho : ∀ o ∈ os, o.Spares N.mod.params ∧ o.Spares M.mod.params) :
    ∃ u u', Returns N.mod.getWeight (runOps os h2).store u ∧ IsVec1 u p (fun i => ((runOps os h2).read w).data i) ∧
      Returns M.mod.getWeight (runOps os h2).store u' ∧ IsVec1 u' p' fun i => ((runOps os h2).read w).data i := by
  have e : runOps (.setWeight ⟨M⟩ w :: os) h1 = runOps os h2 := by
    simp only [runOps, HeapOp.after, hr']
  obtain ⟨-, u, hu, hU⟩ := C55_live hN hs hp hr hw (.setWeight ⟨M⟩ w :: os) (by
    intro o ho'
    rcases List.mem_cons.1 ho' with rfl | ho'
    · rw [HeapOp.Spares, N.mod_params, M.mod_params]; exact hd
    · exact (ho o ho').1)
  rw [e] at hu hU
  have hM1 : M.Ok h1.store := by
    have := (HeapOp.setWeight ⟨N⟩ w).keeps h
    simp only [HeapOp.after, hr] at this
    exact hM.keeps this
  obtain ⟨-, u', hu', hU'⟩ := C55_live hM1 hs' hp' hr' hw os fun o ho' => (ho o ho').2
  exact ⟨u, u', hu, hU, hu', hU'⟩

/-- The vector returned by `get_weight` is not linked to the model: writing to it in place changes no parameter. -/
theorem C55_get (h : Heap ℝ) (m : Mod ℝ) {b : Nat} (hb : ∀ i, (h.view i).buf ≠ b) (ws : List (Nat × ℝ)) :
    (runOps (ws.map fun a => .write b a.1 a.2) (h.getWeight m b).2).store = h.store := by
  have key : ∀ (ws : List (Nat × ℝ)) (g : Heap ℝ), (∀ i, (g.view i).buf ≠ b) → (runOps (ws.map fun a => HeapOp.write b a.1 a.2) g).store = g.store := by
    intro ws
    induction ws with
    | nil => exact fun _ _ => rfl
    | cons a ws ih =>
      intro g hg
      simp only [List.map_cons, runOps, HeapOp.after]
      rw [ih (g.write b a.1 a.2) hg]
      simp only [Heap.write, Heap.store, Heap.read]
      congr 1
      funext i
      simp only [hg i, false_and, if_false]
  have hg : (h.getWeight m b).2.view = h.view := by
    simp only [Heap.getWeight]
    split <;> rfl
  rw [key ws _ (by rw [hg]; exact hb)]
  exact (C55_refines h m ⟨exNet⟩ ⟨0, 0, []⟩).2.2.2 b hb |>.1

/-- `convert_to_nnj`: the new parameters are the given ones, and stay so through every in-place update of either; a `set_weight` on the converted
network unlinks them. -/
theorem C55_convert (h : Heap ℝ) (ps : List (Nat × Nat)) (hnd : (ps.map Prod.fst).Nodup) (hnew : ∀ a ∈ ps, a.2 ∉ ps.map Prod.fst) (os : List HeapOp)
    (ho : ∀ o ∈ os, ∀ a ∈ ps, o.Spares [a.1, a.2]) :
    (∀ a ∈ ps, (runOps os (h.share ps)).store.param a.1 = (runOps os (h.share ps)).store.param a.2) ∧
    ∀ (m : Mod ℝ) (v : View), (∀ a ∈ ps, a.2 ∉ m.params) → ∀ a ∈ ps, ((h.share ps).setWeight m v).2.store.param a.2 = h.store.param a.2 := by
  have hmem : ∀ (ps : List (Nat × Nat)) (h : Heap ℝ), (h.share ps).mem = h.mem := by
    intro ps
    induction ps with
    | nil => exact fun _ => rfl
    | cons a ps ih => intro h; exact ih _
  have hold : ∀ (ps : List (Nat × Nat)) (h : Heap ℝ) (j : Nat), j ∉ ps.map Prod.fst → (h.share ps).view j = h.view j := by
    intro ps
    induction ps with
    | nil => exact fun _ _ _ => rfl
    | cons a ps ih =>
      intro h j hj
      simp only [List.map_cons, List.mem_cons, not_or] at hj
      show ((h.setData a.1 (h.view a.2)).share ps).view j = _
      rw [ih _ _ hj.2]
      exact if_neg hj.1
  have hview : ∀ (ps : List (Nat × Nat)) (h : Heap ℝ), (ps.map Prod.fst).Nodup → (∀ a ∈ ps, a.2 ∉ ps.map Prod.fst) → ∀ a ∈ ps, (h.share ps).view a.1 = h.view a.2 := by
    intro ps
    induction ps with
    | nil => simp
    | cons a ps ih =>
      intro h hnd hnew c hc
      rw [List.map_cons, List.nodup_cons] at hnd
      show ((h.setData a.1 (h.view a.2)).share ps).view c.1 = _
      rcases List.mem_cons.1 hc with rfl | hc
      · rw [hold _ _ _ hnd.1]; exact if_pos rfl
      · rw [ih _ hnd.2 (fun d hd hm => hnew d (by simp [hd]) (by simp [hm])) c hc]
        have := hnew c (by simp [hc])
        simp only [List.map_cons, List.mem_cons, not_or] at this
        exact if_neg this.1
  constructor
  · intro a ha
    show (runOps os (h.share ps)).read _ = (runOps os (h.share ps)).read _
    rw [runOps_view os _ (ps := [a.1, a.2]) (fun o h => ho o h a ha) (by simp), runOps_view os _ (ps := [a.1, a.2]) (fun o h => ho o h a ha) (by simp),
      hview ps h hnd hnew a ha, hold ps h _ (hnew a ha)]
  · intro m v hm a ha
    have h1 := Heap.setLoop_mem v m.parameters 0 (h.share ps)
    have h2 := Heap.setLoop_view v m.parameters 0 (h.share ps) (j := a.2) fun hh => hm a ha (mem_of_mem_dedupFirst hh)
    rw [hold ps h _ (hnew a ha)] at h2
    show Heap.read _ (Heap.view _ _) = h.read (h.view _)
    rw [show ((h.share ps).setWeight m v).2.view a.2 = _ from h2]
    simp only [Heap.read]
    rw [show ((h.share ps).setWeight m v).2.mem = _ from h1.1, hmem]

/-! ### Examples -/

/-- two Linear layers without bias, parameters 0 and 1, in storages of their own with values 2; a vector in storage 2 with value 3 -/
noncomputable def exHeap : Heap ℝ where
  mem b _ := if b = 2 then 3 else 2
  view i := ⟨if i = 1 then 1 else 0, 0, [1, 1]⟩
  rest := doubleStore

/-- the second one -/
noncomputable def otherNet : Net [1] 1 [1] 1 (1 * 1 + 0) := .linear 3 1 none 1 1 (by norm_num) (by norm_num)

theorem double_ok : doubleNet.Ok exHeap.store := ⟨by simp [doubleNet, Net.ids], by simp [doubleNet, Net.Wired, exHeap, Heap.store, Heap.read]⟩
theorem other_ok : otherNet.Ok exHeap.store := ⟨by simp [otherNet, Net.ids], by simp [otherNet, Net.Wired, exHeap, Heap.store, Heap.read]⟩

/-- `model.set_weight(w); other.set_weight(w); model.weight.data[0, 0] = 5` makes `other.get_weight()` return 5. -/
theorem C55_witness : ∃ h1 h2, exHeap.setWeight doubleNet.mod ⟨2, 0, [1]⟩ = (.ok (), h1) ∧ h1.setWeight otherNet.mod ⟨2, 0, [1]⟩ = (.ok (), h2) ∧
    (h2.view 0).buf = 2 ∧ (h2.view 0).off = 0 ∧
    ∃ u, Returns otherNet.mod.getWeight (h2.write 2 0 5).store u ∧ IsVec1 u 1 fun _ => 5 := by
  refine ⟨_, _, rfl, rfl, rfl, rfl, ?_⟩
  obtain ⟨_, u', -, -, hu, hU⟩ := C55_shared (w := ⟨2, 0, [1]⟩) double_ok other_ok (by simp [doubleNet, Net.paramIds]) (by simp [otherNet, Net.paramIds])
    (by simp [doubleNet, otherNet, Net.paramIds]) (by norm_num) (by norm_num) rfl rfl rfl [.write 2 0 5] (fun o ho => by
      rw [List.mem_singleton.1 ho]; exact ⟨trivial, trivial⟩)
  refine ⟨u', hu, hU.1, fun i => (hU.2 i).trans ?_⟩
  have : i = 0 := by omega
  subst this
  rfl

/-- setting again after an in-place write changes nothing -/
example : ∃ h1, exHeap.setWeight doubleNet.mod ⟨2, 0, [1]⟩ = (.ok (), h1) ∧
    (runOps [.write 2 0 5] h1).setWeight doubleNet.mod ⟨2, 0, [1]⟩ = (.ok (), runOps [.write 2 0 5] h1) :=
  ⟨_, rfl, C55_linked (h := exHeap) doubleNet.mod rfl _ fun o ho => by rw [List.mem_singleton.1 ho]; trivial⟩

/-- `w` has two entries, of which the model uses the first; writing to the second changes nothing -/
example : ∃ h1 u u', exHeap.setWeight doubleNet.mod ⟨2, 0, [2]⟩ = (.ok (), h1) ∧ Returns doubleNet.mod.getWeight h1.store u ∧
    Returns doubleNet.mod.getWeight (h1.write 2 (0 + 1) 5).store u' ∧ u'.data 0 = u.data 0 := by
  obtain ⟨u, u', hu, hu', -, -, h⟩ := C55_write (h := exHeap) (w := ⟨2, 0, [2]⟩) double_ok (by simp [doubleNet, Net.paramIds]) (by norm_num) rfl rfl [] (by simp) 1 5
  exact ⟨_, u, u', rfl, hu, hu', (h 0 (by norm_num)).trans (if_neg (by decide))⟩

/-- `w = model.get_weight(); w[0] = 5` -/
example : (runOps [.write 7 0 5] (exHeap.getWeight doubleNet.mod 7).2).store = exHeap.store :=
  C55_get exHeap doubleNet.mod (fun i => by simp only [exHeap]; split <;> decide) [(0, 5)]

/-- parameter 5 converted from parameter 0, which is then written to in place -/
example : (runOps [.write 0 0 9] (exHeap.share [(5, 0)])).store.param 5 = (runOps [.write 0 0 9] (exHeap.share [(5, 0)])).store.param 0 :=
  (C55_convert exHeap [(5, 0)] (by decide) (by decide) [.write 0 0 9] fun o ho _ _ => by rw [List.mem_singleton.1 ho]; trivial).1 _ List.mem_cons_self

end NNJ.Props
