import Verif.Proofs.Slice
import Verif.Proofs.Grow
import Verif.Props.History
import Verif.Props.AddHooks

/-!
# C52: Sequentials that share layers, as `model` and `model[a:b]` do
-/

namespace NNJ
namespace Props
open NNJ Matrix Tensor

variable {s s' : List Nat} {n k p l B : Nat} {N : Net s n s' k p} {st : Store ℝ} {F : List Nat} {x : Tensor ℝ} {X : Fin B → Fin n → ℝ}

/-- `model[a:b]` with `a < b ≤ len(model)` is a Sequential `q` of the layers `a, ..., b-1`.  Afterwards both are properly wired
except for the hooks of the other one (and of the Sequentials `F` that shared layers with the model before). -/
theorem C52_slice {id q a b : Nat} {c : Chain s n s' k p (l + 1)} (h : (Net.seq id c).OkBut F st) (hq : Fresh q st)
    (hq' : q ∉ (Net.seq id c).ids) (hab : a < b) (hb : b ≤ l + 1) :
    ∃ (s1 s2 : List Nat) (n1 k1 p1 m : Nat) (c2 : Chain s1 n1 s2 k1 p1 (m + 1)) (st1 : Store ℝ),
      Sequential.getSlice q c.mods a b st = (.ok (Net.seq q c2).mod, st1) ∧ c2.mods = (c.mods.drop a).take (b - a) ∧ st1.param = st.param ∧
      (Net.seq id c).OkBut (q :: F) st1 ∧ (Net.seq q c2).OkBut (id :: F) st1 := by
  obtain ⟨m, rfl⟩ : ∃ m, b = a + (m + 1) := ⟨b - a - 1, by omega⟩
  obtain ⟨s1, s2, n1, k1, p1, c2, h1, h2, h3, _⟩ := c.exists_slice a (m + 1) hb
  rw [show a + (m + 1) - a = m + 1 by omega] at *
  refine ⟨s1, s2, n1, k1, p1, m, c2, (Sequential.init q c2.mods true st).2, ?_, h1, rfl, ?_, ?_⟩
  · rw [Sequential.getSlice, show a + (m + 1) - a = m + 1 by omega, ← h1]
    simp only [Net.mod]; rfl
  · exact h.init hq hq' c2.mods
  · exact h.slice hq hq' h2 fun st => h3 id st

/-- Any other network, too, stays properly wired, except for the hooks of the new Sequential. -/
theorem C52_others {q : Nat} (h : N.OkBut F st) (hq : Fresh q st) (hN : q ∉ N.ids) (ms : List (Mod ℝ)) (a b : Nat) :
    N.OkBut (q :: F) (Sequential.getSlice q ms a b st).2 :=
  h.init hq hN _

/-- A network that shares modules with any number of Sequentials, after any history of any networks: every call with `val=None`
returns what it returns in any properly wired state `st0` in which the network shares nothing and has the same parameters. -/
theorem C52_results (h : N.OkBut F st) (hist : List (AnyNet × Event)) (hB : 0 < B) (hx : IsBatch x B s n X) (c : Call) (hc : c.Valid N B)
    {st0 : Store ℝ} (h0 : N.Ok st0) (hw : ∀ i ∈ N.paramIds, TEq (st0.param i) ((runHistory hist st).param i)) :
    ∃ r r0, Returns (c.run N.mod x none) (runHistory hist st) r ∧ Returns (c.run N.mod x none) st0 r0 ∧ PEq r r0 := by
  have h1 : N.OkBut F (runHistory hist st) := h.keeps (runHistory_keeps hist st)
  obtain ⟨r, r0, hr, hr0, hp⟩ := C17_history (N := N) h1.ok [] hB hx c hc h0 hw
  exact ⟨r, r0, by rw [Returns, h1.run_eq]; exact hr, hr0, hp⟩

/-- `val = model(x)`, then any calls on networks that share neither Sequentials nor MaxPool2d layers with the model (a slice of a
model of other layers, say): the products with this `val` are those with `val=None`. -/
theorem C52_val (h : N.OkBut F st) (hh : ∀ j ∈ st.hooks N.mod.id, j ∈ F) (hB : 0 < B) (hx : IsBatch x B s n X) :
    ∃ val st1, N.mod.call x st = (.ok val, st1) ∧
      ∀ hist : List (AnyNet × Event), (∀ e ∈ hist, e.2.KeepsWeights ∧ ∀ i ∈ e.1.net.stateful, i ∉ N.stateful) →
      ∀ c : Call, c.Valid N B → c.NotJacobian →
        ∃ r r', Returns (c.run N.mod x (some val)) (runHistory hist st1) r ∧ Returns (c.run N.mod x none) (runHistory hist st1) r' ∧ PEq r r' := by
  have hf := h.ok.g.forward h.ok.w hB hx
  rw [Net.mdl_m, Net.mdl_Y] at hf
  obtain ⟨val, t1, hv, hval, hs, hcache⟩ := hf
  have hc : N.mod.call x (st.without F) = (.ok val, t1) := by
    simp only [Mod.call]
    rw [Prog.bind_ok hv, Prog.bind_read_run, hs.hooks]
    rw [show (st.without F).hooks N.mod.id = [] from List.filter_eq_nil_iff.2 fun j hj => by simpa using hh j hj]
    rfl
  obtain ⟨e1, e2⟩ := h.call_eq x
  rw [hc] at e1 e2
  refine ⟨val, (N.mod.call x st).2, Prod.ext e1 rfl, fun hist hhist c hc hj => ?_⟩
  have h1 : N.OkBut F (N.mod.call x st).2 := h.keeps (N.tame.call x st)
  generalize (N.mod.call x st).2 = st1 at *
  have h2 : N.OkBut F (runHistory hist st1) := h1.keeps (runHistory_keeps hist st1)
  have o := Grow.history (K := N.stateful) hist hhist st1
  generalize runHistory hist st1 = st2 at *
  have hout : ∀ i ∈ N.stateful, i ∉ F := fun i hi hF => h.outside i hF (N.stateful_sub i hi)
  have o' : Grow.On N.stateful t1 (st2.without F) := by
    rw [← show st1.without F = t1 from e2]
    refine ⟨o.param, by simp only [Store.without, o.hooks], fun i hi L hL => ?_, o.pidx⟩
    have hne := hout i hi
    simp only [Store.without, hne, if_false] at hL ⊢
    exact o.fmaps i hi L hL
  have hw : N.w (st2.without F) = N.w (st.without F) := by
    rw [Grow.netW N o'.param, ← N.mdl_w]; exact h.ok.g.w_of hs.param
  obtain ⟨P, hdet, hP⟩ := N.call_spec h.ok.nodup hB c hc (N.w (st.without F)) X
  have hS := hP (st2.without F) x h2.ok hw hx
  obtain ⟨r', hr', _, hPr', _⟩ := hS.1.returns
  obtain ⟨r, hr, _, hPr, _⟩ := (hS.2 hj val (Or.inr (by rw [Net.mdl_Y, hw]; exact hval)) (Grow.netCache N o' hcache)).returns
  exact ⟨r, r', by rw [Returns, h2.run_eq]; exact hr, by rw [Returns, h2.run_eq]; exact hr', hdet r r' hPr hPr'⟩

/-! ### Stale caches -/

theorem nested_stale {st : Store ℝ} {val t0 t1 : Tensor ℝ} {L : List (Tensor ℝ)} (h : nestedNet.Ok st) (hL : st.fmaps 0 = some L) (g0 : L[0]? = some t0)
    (g1 : L[1]? = some t1) (hc : innerNet.mdl.cache 1 (fun _ _ => -1) st) :
    ∃ t, Returns (nestedNet.mod.vjp (num 1) (some val) (num 1) .input) st (some t) ∧ IsVec t 1 1 (fun _ _ => 0) := by
  have hmod : nestedNet.mod = Sequential.mod 0 true [innerNet.mod] := by simp only [nestedNet, Net.mod, Chain.mods, List.nil_append]
  have hnd : innerNet.ids.Nodup := by simp only [innerNet, Net.ids, Chain.ids]; decide
  have hi : innerNet.Ok st := by
    have := h.wired
    simp only [nestedNet, Net.Wired, Chain.Wired] at this
    exact ⟨hnd, this.2.2.1⟩
  have hv2 := (hi.g.vjpI hi.w Nat.one_pos (num_isBatch (-1)) (num_isVec 1)).1 t1 (Or.inl (by simp only [innerNet, Net.mdl, seqMdl])) hc
  rw [Net.mdl_m, Net.mdl_J] at hv2
  obtain ⟨r3, s3, hr3, hr3', rfl⟩ := hv2
  cases r3 with
  | none => exact hr3'.elim
  | some t =>
  refine ⟨t, ?_, ?_⟩
  · have hr4 : innerNet.mod.vjp t0 (some t1) (num 1) .input s3 = (.ok (some t), s3) := by
      have e : innerNet.mod.vjp t0 (some t1) (num 1) .input s3 = innerNet.mod.vjp (num (-1)) (some t1) (num 1) .input s3 := by
        simp only [innerNet, Net.mod]; rfl
      exact e.trans hr3
    have : Sequential.vjpInput 0 [innerNet.mod] 1 (num 1) s3 = (.ok t, s3) := by
      rw [Sequential.vjpInput, Prog.bind_ok (p := Sequential.child [innerNet.mod] 0) (b := innerNet.mod) (s' := s3) rfl, Prog.bind_ok (MChain.fmap_of hL g0), Prog.bind_ok (MChain.fmap_of hL g1), Prog.bind_ok hr4]
      rfl
    rw [Returns, hmod]
    show (Sequential.vjp 0 true [innerNet.mod] (num 1) (some val) (num 1) .input s3).1 = _
    simp only [Sequential.vjp]
    exact congrArg Prod.fst (Prog.bind_ok (b := t) (s' := s3) this)
  · refine IsVec.congr hr3' fun b i => ?_
    simp [innerNet_J, vecMul, dotProduct]

/-- the layers of `model = Sequential(Sequential(ReLU()))` -/
noncomputable def nestedChain : Chain [1] 1 [1] 1 (0 + (0 + 0)) 1 := .snoc (.nil [1] 1 rfl (by norm_num)) innerNet

/-- the slice `model[0:1]` of it -/
noncomputable def nestedSlice : Net [1] 1 [1] 1 (0 + (0 + 0)) := .seq 3 nestedChain

theorem nestedNet_eq : nestedNet = .seq 0 nestedChain := rfl

theorem nestedFresh : Fresh 3 nestedStore := ⟨by simp [nestedStore], fun i => by
  simp only [nestedStore]; split
  · simp
  · split <;> simp⟩

theorem without_nil_ok {N : Net s n s' k p} (h : N.Ok st) : N.OkBut [] st := ⟨by rw [without_nil]; exact h, by simp, by simp⟩

/-- A shared inner Sequential (or MaxPool2d layer) is what `C52_val` excludes: with `model = Sequential(Sequential(ReLU()))`,
`part = model[0:1]`, `val = model(1)` and then `part(-1)`, the product `model.vjp(1, val, v)` is 0 although `model.vjp(1, None, v)` is 1. -/
theorem C52_stale : ∃ st1 val st2 val' st3 t t',
    Sequential.getSlice 3 nestedChain.mods 0 1 nestedStore = (.ok nestedSlice.mod, st1) ∧
    nestedNet.mod.call (num 1) st1 = (.ok val, st2) ∧ nestedSlice.mod.call (num (-1)) st2 = (.ok val', st3) ∧
    Returns (nestedNet.mod.vjp (num 1) (some val) (num 1) .input) st3 (some t) ∧ IsVec t 1 1 (fun _ _ => 0) ∧
    Returns (nestedNet.mod.vjp (num 1) none (num 1) .input) st3 (some t') ∧ IsVec t' 1 1 (fun _ _ => 1) := by
  have hN0 : (Net.seq 0 nestedChain).OkBut [] nestedStore := without_nil_ok nestedNet_ok
  have hids : 3 ∉ (Net.seq 0 nestedChain).ids := by simp [nestedChain, innerNet, Net.ids, Chain.ids]
  have hN1 : nestedNet.OkBut [3] (Sequential.init 3 nestedChain.mods true nestedStore).2 := hN0.init nestedFresh hids nestedChain.mods
  have hM1 : nestedSlice.OkBut [0] (Sequential.init 3 nestedChain.mods true nestedStore).2 :=
    hN0.slice nestedFresh hids (List.Sublist.refl _) fun _ h => h
  have hk : ∀ (N : Net [1] 1 [1] 1 (0 + (0 + 0))) F st a, N.OkBut F st → (st.without F).hooks N.mod.id = [] → ∃ val st', N.mod.call (num a) st = (.ok val, st') ∧
      N.mdl.cache 1 (fun _ _ => a) (st'.without F) ∧ Keeps st st' := by
    intro N F st a h hh
    have hf := h.ok.g.forward h.ok.w Nat.one_pos (num_isBatch a)
    rw [Net.mdl_m] at hf
    obtain ⟨val, t1, hv, -, hs, hcache⟩ := hf
    have hc : N.mod.call (num a) (st.without F) = (.ok val, t1) := by
      simp only [Mod.call]
      rw [Prog.bind_ok hv, Prog.bind_read_run, hs.hooks, hh]
      rfl
    obtain ⟨e1, e2⟩ := h.call_eq (num a)
    rw [hc] at e1 e2
    refine ⟨val, (N.mod.call (num a) st).2, Prod.ext e1 rfl, ?_, N.tame.call _ _⟩
    rw [e2]; exact hcache
  have hs1 : Sequential.getSlice 3 nestedChain.mods 0 1 nestedStore = (.ok nestedSlice.mod, (Sequential.init 3 nestedChain.mods true nestedStore).2) := by
    simp only [nestedSlice, Net.mod, nestedChain, Chain.mods]; rfl
  have hh0 : (Sequential.init 3 nestedChain.mods true nestedStore).2.hooks 0 = [] := by
    simp [nestedChain, Chain.mods, innerNet, Net.mod, Sequential.init, Sequential.register, Prog.modify, Prog.bind_run, nestedStore, Sequential.mod]
  have hh3 : (Sequential.init 3 nestedChain.mods true nestedStore).2.hooks 3 = [] := by
    simp [nestedChain, Chain.mods, innerNet, Net.mod, Sequential.init, Sequential.register, Prog.modify, Prog.bind_run, nestedStore, Sequential.mod]
  generalize (Sequential.init 3 nestedChain.mods true nestedStore).2 = st1 at *
  have id0 : nestedNet.mod.id = 0 := by simp only [nestedNet, Net.mod, Sequential.mod]
  have id3 : nestedSlice.mod.id = 3 := by simp only [nestedSlice, Net.mod, Sequential.mod]
  obtain ⟨val, st2, e2, c2, k2⟩ := hk nestedNet [3] st1 1 hN1 (by rw [id0]; simp [Store.without, hh0])
  have hN2 := hN1.keeps k2
  have hM2 := hM1.keeps k2
  obtain ⟨val', st3, e3, c3, k3⟩ := hk nestedSlice [0] st2 (-1) hM2 (by rw [id3]; simp [Store.without, k2.hooks, hh3])
  have hN3 := hN2.keeps k3
  simp only [nestedNet, Net.mdl, seqMdl, Chain.mchain, MChain.listOk] at c2
  obtain ⟨⟨L, hL, ⟨t0, hL0, -⟩, t1, hL1, -⟩, -⟩ := c2
  have hst : nestedSlice.stateful = [3, 1] := by simp [nestedSlice, nestedChain, innerNet, Net.stateful, Chain.stateful]
  have g := (Grow.net nestedSlice (fun i hi => hi)).call (num (-1)) st2
  rw [e3, hst] at g
  obtain ⟨E, hE⟩ := g.fmaps 0 L (by simp) (by simpa [Store.without] using hL)
  simp only [nestedSlice, nestedChain, Net.mdl, seqMdl, Chain.mchain, MChain.kids] at c3
  have hc3 : innerNet.mdl.cache 1 (fun _ _ => -1) (st3.without [3]) := by
    have hnd : innerNet.ids.Nodup := by simp only [innerNet, Net.ids, Chain.ids]; decide
    have hi : innerNet.Ok (st3.without [3]) := by
      have := hN3.ok.wired
      simp only [nestedNet, Net.Wired, Chain.Wired] at this
      exact ⟨hnd, this.2.2.1⟩
    refine hi.g.cache_frame (s := st3.without [0]) rfl (fun i hi => ?_) c3.2.2
    have : i = 1 ∨ i = 2 := by simpa [Net.mdl_ids, innerNet, Net.ids, Chain.ids] using hi
    rcases this with rfl | rfl <;> simp [Store.without]
  obtain ⟨t, ht, hT⟩ := nested_stale (val := val) (t0 := t0) (t1 := t1) (L := L ++ E) hN3.ok (by simpa [Store.without] using hE)
    (by rw [List.getElem?_append_left (List.getElem?_eq_some_iff.1 hL0).1, hL0])
    (by rw [List.getElem?_append_left (List.getElem?_eq_some_iff.1 hL1).1, hL1]) hc3
  obtain ⟨t', ht', hT'⟩ := hN3.ok.vjpI Nat.one_pos (num_isBatch 1) (num_isVec 1)
  have e := hN3.run_eq (num 1) (some val) (.vjp (num 1) .input)
  have e' := hN3.run_eq (num 1) none (.vjp (num 1) .input)
  have back : ∀ v r, Returns (nestedNet.mod.vjp (num 1) v (num 1) .input) (st3.without [3]) (some r) →
      Returns (nestedNet.mod.vjp (num 1) v (num 1) .input) st3 (some r) := fun v r hr => by
    rw [Returns, (run_without [3] (fun q hq => (nestedNet.insens (hN3.outside q hq)).vjp _ _ _ _) hN3.attr).1]; exact hr
  refine ⟨st1, val, st2, val', st3, t, t', hs1, e2, e3, back _ _ ht, hT, back _ _ ht', hT'.congr fun b i => ?_⟩
  simp [nestedNet_J, vecMul, dotProduct]

/-! ### Examples -/

theorem exFresh : Fresh 9 exStore := ⟨by simp [exStore], fun i => by
  simp only [exStore]; split <;> simp⟩

/-- `exNet[1:3]`: the Tanh and the SkipConnection -/
example : ∃ (s1 s2 : List Nat) (n1 k1 p1 m : Nat) (c2 : Chain s1 n1 s2 k1 p1 (m + 1)) (st1 : Store ℝ),
    Sequential.getSlice 9 exChain.mods 1 3 exStore = (.ok (Net.seq 9 c2).mod, st1) ∧ (Net.seq 9 c2).OkBut [0] st1 := by
  obtain ⟨s1, s2, n1, k1, p1, m, c2, st1, h1, _, _, _, h2⟩ := C52_slice (q := 9) (a := 1) (b := 3) (c := exChain) (id := 0) (F := [])
    (without_nil_ok exNet_ok) exFresh (by simp [exChain, Net.ids, Chain.ids]) (by norm_num) (by norm_num)
  exact ⟨s1, s2, n1, k1, p1, m, c2, st1, h1, h2⟩

/-- `exNet[0:2]`: the Linear and the Tanh -/
noncomputable def exHead : Net [2] 2 [3] 3 (0 + (3 * 2 + 3) + 0) :=
  .seq 9 (.snoc (.snoc (.nil [2] 2 rfl (by norm_num)) (.linear 1 0 (some 1) 2 3 (by norm_num) (by norm_num))) (.act .tanh 2 [3] 3 rfl (by norm_num)))

theorem exHead_mod : Sequential.getSlice 9 exChain.mods 0 2 exStore = (.ok exHead.mod, (Sequential.getSlice 9 exChain.mods 0 2 exStore).2) := by
  simp only [exHead, exChain, Net.mod, Chain.mods]; rfl

theorem exShared : exNet.OkBut [9] (Sequential.getSlice 9 exChain.mods 0 2 exStore).2 :=
  C52_others (without_nil_ok exNet_ok) exFresh (by simp [exNet, Net.ids, Chain.ids]) exChain.mods 0 2

/-- the products of `exNet` after `head = exNet[0:2]`, a new `val`, and calls on `head` -/
example : ∃ val st1, exNet.mod.call exInput (Sequential.getSlice 9 exChain.mods 0 2 exStore).2 = (.ok val, st1) ∧
    ∀ y z, ∃ r r', Returns ((Call.vjp ⟨[2, 1], fun _ => 1⟩ .weight).run exNet.mod exInput (some val))
        (runHistory [(⟨exHead⟩, .call y), (⟨exHead⟩, .method z none (.jacobian .weight))] st1) r ∧
      Returns ((Call.vjp ⟨[2, 1], fun _ => 1⟩ .weight).run exNet.mod exInput none)
        (runHistory [(⟨exHead⟩, .call y), (⟨exHead⟩, .method z none (.jacobian .weight))] st1) r' ∧ PEq r r' := by
  obtain ⟨val, st1, h1, h2⟩ := C52_val exShared (fun j hj => by
    simp [Sequential.getSlice, exChain, Chain.mods, Net.mod, exNet, Sequential.init, Sequential.register, Prog.modify, Prog.bind_run, exStore, Sequential.mod,
      Linear.mod, Activation.toMod, SkipConnection.mod, PureLayer.toMod] at hj) (by norm_num) exInput_isBatch
  refine ⟨val, st1, h1, fun y z => h2 _ (fun e he => ?_) _ rfl trivial⟩
  have hs : ∀ i ∈ exHead.stateful, i ∉ exNet.stateful := by simp [exHead, exNet, Net.stateful, Chain.stateful]
  simp only [List.mem_cons, List.not_mem_nil, or_false] at he
  rcases he with rfl | rfl
  · exact ⟨trivial, hs⟩
  · exact ⟨trivial, hs⟩

/-- and after calls on `head` that change the shared parameters -/
example (v y : Tensor ℝ) : ∃ r r0,
    Returns ((Call.vjp ⟨[2, 1], fun _ => 1⟩ .weight).run exNet.mod exInput none)
      (runHistory [(⟨exHead⟩, .setWeight v), (⟨exHead⟩, .call y)] (Sequential.getSlice 9 exChain.mods 0 2 exStore).2) r ∧
    Returns ((Call.vjp ⟨[2, 1], fun _ => 1⟩ .weight).run exNet.mod exInput none)
      { exStore with param := (runHistory [(⟨exHead⟩, .setWeight v), (⟨exHead⟩, .call y)] (Sequential.getSlice 9 exChain.mods 0 2 exStore).2).param } r0 ∧ PEq r r0 := by
  have hk := runHistory_keeps [(⟨exHead⟩, .setWeight v), (⟨exHead⟩, .call y)] (Sequential.getSlice 9 exChain.mods 0 2 exStore).2
  have h0 := C52_results (B := 2) exShared [(⟨exHead⟩, .setWeight v), (⟨exHead⟩, .call y)] (by norm_num) exInput_isBatch (.vjp ⟨[2, 1], fun _ => 1⟩ .weight) rfl
    (st0 := { exStore with param := (runHistory [(⟨exHead⟩, .setWeight v), (⟨exHead⟩, .call y)] (Sequential.getSlice 9 exChain.mods 0 2 exStore).2).param })
  have hp : ∀ i, ((Sequential.getSlice 9 exChain.mods 0 2 exStore).2.param i).shape = (exStore.param i).shape := fun i => rfl
  generalize runHistory [(⟨exHead⟩, .setWeight v), (⟨exHead⟩, .call y)] (Sequential.getSlice 9 exChain.mods 0 2 exStore).2 = st at *
  exact h0 (exNet_ok.keeps ⟨fun i => (hk.param i).trans (hp i), rfl, fun _ h => h⟩) fun _ _ => ⟨rfl, fun _ _ => rfl⟩

end Props
end NNJ
