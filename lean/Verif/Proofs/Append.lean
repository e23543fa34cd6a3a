import Verif.Model.SequentialEdit
import Verif.Spec.Append
import Verif.Proofs.Calls
import Verif.Proofs.SeqFwd
import Verif.Proofs.Post
import Verif.Proofs.Unhooked

/-! Sequentials edited in place. -/

namespace NNJ
open Tensor Matrix

variable {s s' s'' : List Nat} {n k j p q l B : Nat} {st : Store ℝ} {x : Tensor ℝ} {X : Fin B → Fin n → ℝ}

theorem Prog.assoc {α β γ δ : Type} (p : Prog α β) (f : β → Prog α γ) (g : γ → Prog α δ) : (p >>= f) >>= g = p >>= fun b => f b >>= g := by
  funext s
  simp only [Prog.bind_run]
  rcases p s with ⟨_ | _, _⟩ <;> rfl

theorem Wiring.trans {s1 s2 s3 : Store ℝ} (h : Wiring s1 s2) (h' : Wiring s2 s3) : Wiring s1 s3 :=
  ⟨fun i => (h'.param i).trans (h.param i), h'.hooks.trans h.hooks, fun i => (h'.some i).trans (h.some i)⟩

theorem seq_run_append (ms ms' : List (Mod ℝ)) (x : Tensor ℝ) :
    Sequential.run (ms ++ ms') x = Sequential.run ms x >>= fun y => Sequential.run ms' y := by
  induction ms generalizing x with
  | nil => rfl
  | cons m ms ih =>
    simp only [List.cons_append, Sequential.run, ih, Prog.assoc]

/-- calling a module without hooks is running its `forward` -/
theorem call_unhooked {m : Mod ℝ} {v : Tensor ℝ} {s s1 : Store ℝ} (h : m.forward x s = (.ok v, s1)) (hh : s1.hooks m.id = []) :
    m.call x s = (.ok v, s1) := by
  simp only [Mod.call]
  rw [Prog.bind_ok h, Prog.bind_read_run, hh]
  rfl

section
variable {id : Nat} {c : Chain s n s' k p (l + 1)} {m : Net s' k s'' j q}

theorem Appended.forward (h : Appended id c m st) (hB : 0 < B) (hx : IsBatch x B s n X) :
    Run ((Sequential.append id c.mods m.mod).forward x) st fun y st1 =>
      IsBatch y B s'' j (fun b => m.sem.f (m.w st) ((Net.seq id c).sem.f ((Net.seq id c).w st) (X b))) ∧
      Step ((Net.seq id c).ids ++ m.ids) st st1 ∧ (Net.seq id c).mdl.cache B X st1 := by
  have hf := h.ok.g.forward h.ok.w hB hx
  rw [Net.mdl_m, Net.mdl_Y, Net.mdl_ids] at hf
  obtain ⟨v, s1, hv, hV, hst, hc⟩ := hf
  have hm := h.okm.g.forward (h.okm.g.wired_of hst.wiring h.okm.w) hB hV
  rw [Net.mdl_m, Net.mdl_Y, Net.mdl_ids] at hm
  obtain ⟨y, s2, hy, hY, hst2, -⟩ := hm
  have hw : m.w s1 = m.w st := by
    have := h.okm.g.w_of hst.param
    rwa [Net.mdl_w] at this
  have hcall : m.mod.call v s1 = (.ok y, s2) := call_unhooked hy (by rw [hst2.hooks, hst.hooks]; exact h.unhooked)
  have e : (Sequential.append id c.mods m.mod).forward x st = (.ok y, s2) := by
    have e0 : (Sequential.append id c.mods m.mod).forward x = (Net.seq id c).mod.forward x >>= fun y => Sequential.run [m.mod] y := by
      simp only [Net.mod]
      show Sequential.forward id true (c.mods ++ [m.mod]) x = Sequential.forward id true c.mods x >>= _
      simp only [Sequential.forward, seq_run_append, if_true, Prog.assoc]
    rw [e0, Prog.bind_ok hv]
    simp only [Sequential.run]
    rw [Prog.bind_ok hcall]
    rfl
  refine ⟨y, s2, e, ?_, (hst.mono fun i hi => by simp [hi]).trans (hst2.mono fun i hi => by simp [hi]), ?_⟩
  · rw [hw] at hY; exact hY
  · refine h.ok.g.cache_frame hst2.param (fun i hi => ?_) hc
    rw [Net.mdl_ids] at hi
    exact hst2.frame i fun h' => h.disjoint i h' hi

/-- the products that get their vector or matrix behave, once `val` is there, as before the edit -/
theorem append_backward {m : Mod ℝ} {v : Tensor ℝ} {st1 : Store ℝ} (hf : (Sequential.append id c.mods m).forward x st = (.ok v, st1)) {cl : Call}
    (hc : cl.Valid (Net.seq id c) B) (hb : cl.Backward) :
    cl.run (Sequential.append id c.mods m) x none st = cl.run (Net.seq id c).mod x (some v) st1 := by
  have hf' : Sequential.forward id true (c.mods ++ [m]) x st = (.ok v, st1) := hf
  simp only [Net.mod]
  cases cl with
  | vjp u w =>
    show (Sequential.vjpE id true (c.mods ++ [m]) c.mods x none u w >>= _) st = (Sequential.vjp id true c.mods x (some v) u w >>= _) st1
    rw [Prog.bind_run, Prog.bind_run]
    have : Sequential.vjpE id true (c.mods ++ [m]) c.mods x none u w st = Sequential.vjp id true c.mods x (some v) u w st1 := by
      cases w with
      | other => exact hc.elim
      | input | weight =>
        simp only [Sequential.vjpE, Sequential.vjp, Sequential.getVal]
        exact Prog.bind_ok hf'
    rw [this]
  | mjp u w =>
    cases u with
    | none => cases w <;> exact hc.elim
    | some u =>
    show (Sequential.mjpE id true (c.mods ++ [m]) c.mods x none (some u) w >>= _) st = (Sequential.mjp id true c.mods x (some v) (some u) w >>= _) st1
    rw [Prog.bind_run, Prog.bind_run]
    have : Sequential.mjpE id true (c.mods ++ [m]) c.mods x none (some u) w st = Sequential.mjp id true c.mods x (some v) (some u) w st1 := by
      cases w with
      | other => exact hc.elim
      | input | weight =>
        simp only [Sequential.mjpE, Sequential.mjp, Sequential.getVal]
        exact Prog.bind_ok hf'
    rw [this]
  | jTmjp u w fd td db =>
    cases u with
    | none => cases w <;> exact hc.elim
    | some u =>
    show Sequential.jTmjpE id true (c.mods ++ [m]) c.mods x none (some u) w fd td db st = Sequential.jTmjp id true c.mods x (some v) (some u) w fd td db st1
    have hd : db → fd ∧ td := by cases w <;> first | exact hc.2 | exact hc.elim
    have ha : ((!db) || (db && fd && td)) = true := by cases db <;> cases fd <;> cases td <;> simp_all
    simp only [Sequential.jTmjpE, Sequential.jTmjp, Sequential.getVal, ha]
    exact Prog.bind_ok hf'
  | jmjTp u w fd td db =>
    show (Sequential.jmjTpE id true (c.mods ++ [m]) c.mods (Sequential.nParams c.mods) x none u w fd td db >>= _) st =
      (Sequential.jmjTp id true c.mods x (some v) u w fd td db >>= _) st1
    rw [Prog.bind_run, Prog.bind_run]
    have hd : db → fd ∧ td := by
      cases u <;> cases w <;> first | exact hc.2.2 | exact hc.2.2.2 | exact hc.elim
    have ha : ((!db) || (db && fd && td)) = true := by cases db <;> cases fd <;> cases td <;> simp_all
    have : Sequential.jmjTpE id true (c.mods ++ [m]) c.mods (Sequential.nParams c.mods) x none u w fd td db st = Sequential.jmjTp id true c.mods x (some v) u w fd td db st1 := by
      simp only [Sequential.jmjTpE, Sequential.jmjTp, Sequential.getVal, ha]
      exact Prog.bind_ok hf'
    rw [this]
  | _ => exact hb.elim

/-- with `matrix=None` the identity is sized by the new output -/
theorem append_jacobian {m : Mod ℝ} {v I : Tensor ℝ} {st1 : Store ℝ} (hf : (Sequential.append id c.mods m).forward x st = (.ok v, st1))
    (hI : Sequential.eyeFor v = .ok I) {w : Wrt} (hw : w = .input ∨ w = .weight) :
    (Sequential.append id c.mods m).jacobian x none w st = (Net.seq id c).mod.mjp x (some v) (some I) w st1 := by
  have hf' : Sequential.forward id true (c.mods ++ [m]) x st = (.ok v, st1) := hf
  simp only [Net.mod]
  show Sequential.mjpE id true (c.mods ++ [m]) c.mods x none none w st = Sequential.mjp id true c.mods x (some v) (some I) w st1
  simp only [Sequential.mjpE, Sequential.mjp, Sequential.getVal, hw]
  refine (Prog.bind_ok hf').trans ?_
  rw [hI]
  rfl

/-! ### forward mode -/

namespace MChain
variable {sI sO sK : List Nat} {n k p l j r q B : Nat} {X : Fin B → Fin n → ℝ} {x : Tensor ℝ} {L : List (Tensor ℝ)} {s : Store ℝ}
variable {c : MChain sI n sO k p l} {M : Mdl sO k sK j r}

theorem jvpInput_then (hg : c.AllGood) (hf : c.fwdI) (hnd : (q :: c.ids).Nodup) (hw : c.Wired q s) (hB : 0 < B) (hx : IsBatch x B sI n X)
    (hL : s.fmaps q = some L) (hM : Good M) (hfM : M.fwdI) (hMw : M.wired s) (hh : s.hooks M.m.id = [])
    {u : Tensor ℝ} {U : Fin B → Fin n → ℝ} (hu : IsVec u B n U) :
    Run (Sequential.jvpInput (c.mods ++ [M.m]) x u) s fun y _ => IsVec y B j (fun b => M.J s (c.Y s X) b *ᵥ (c.J s X b *ᵥ U b)) := by
  refine loop_ind (fun ms y a => Sequential.jvpInput ms y a) (a₀ := u) (@fun sO k p l c a => IsVec a B k fun b => c.J s X b *ᵥ U b)
    (fun M => Good M ∧ M.fwdI) hx hL ?_ ?_ c le_rfl hg.toI (all_and hg.all hf) hnd hw [M.m] ?_
  · exact hu.congr fun b i => by simp [J, S, Sem.id]
  · intro sO k p l sK j r c M rest y a s' L' hN hg _ ⟨hM, hfM⟩ hnd hMw hh hq hL' hpar hy hT hk
    refine (run_call hM hMw hh hq hL' hB hy).bind fun v s'' ⟨hv, hcall⟩ => ?_
    have hv' : IsBatch v B sK j (M.Y s'' (c.Y s X)) := by rwa [hM.Y_of hcall.step.param]
    refine Run.bindNeed ((hM.jvpI hfM (hM.wired_of hcall.step.wiring hMw) hB hy hT) (some v) ?_) fun t s3 ht h3 => ?_
    · intro v' h; cases h; exact Or.inr hv'
    · refine hk v t s3 (by rwa [hM.Y_of hpar] at hv) ?_ (hcall.then hq h3.1 h3.2)
      exact ht.congr fun b i => by
        rw [J_snoc, ← mulVec_mulVec]
        rw [hM.J_of hcall.step.param, hM.J_of hpar]
  · intro y a s' hy hT hr
    obtain ⟨v, s1, hv, hV, hst, -⟩ := hM.forward (hM.wired_of hr.step.wiring hMw) hB hy
    have hcall : M.m.call y s' = (.ok v, s1) := call_unhooked hv (by rw [hst.hooks, hr.step.hooks]; exact hh)
    simp only [Sequential.jvpInput]
    refine Run.bind (show Run (M.m.call y) s' fun b s2 => b = v ∧ s2 = s1 from ⟨v, s1, hcall, rfl, rfl⟩) fun _ _ e => ?_
    obtain ⟨rfl, rfl⟩ := e
    refine Run.bindNeed ((hM.jvpI hfM (hM.wired_of (hr.step.wiring.trans hst.wiring) hMw) hB hy hT) (some _) ?_) fun t s3 ht h3 => ?_
    · intro v' h; cases h; exact Or.inr (by rwa [hM.Y_of hst.param])
    · refine Run.pure (ht.congr fun b i => ?_)
      rw [hM.J_of hst.param, hM.J_of hr.step.param]

theorem jmpInput_then (hg : c.AllGood) (hf : c.fwdI) (hnd : (q :: c.ids).Nodup) (hw : c.Wired q s) (hB : 0 < B) (hx : IsBatch x B sI n X)
    (hL : s.fmaps q = some L) (hM : Good M) (hfM : M.fwdI) (hMw : M.wired s) (hh : s.hooks M.m.id = [])
    {u : Tensor ℝ} {r : Nat} {U : Fin B → Matrix (Fin n) (Fin r) ℝ} (hu : IsMat u B n r U) :
    Run (Sequential.jmpInput (c.mods ++ [M.m]) x u) s fun y _ => IsMat y B j r (fun b => M.J s (c.Y s X) b * (c.J s X b * U b)) := by
  refine loop_ind (fun ms y a => Sequential.jmpInput ms y a) (a₀ := u) (@fun sO k p l c a => IsMat a B k r fun b => c.J s X b * U b)
    (fun M => Good M ∧ M.fwdI) hx hL ?_ ?_ c le_rfl hg.toI (all_and hg.all hf) hnd hw [M.m] ?_
  · exact hu.congr fun b i _ => by simp [J, S, Sem.id]
  · intro sO k p l sK j r c M rest y a s' L' hN hg _ ⟨hM, hfM⟩ hnd hMw hh hq hL' hpar hy hT hk
    refine (run_call hM hMw hh hq hL' hB hy).bind fun v s'' ⟨hv, hcall⟩ => ?_
    have hv' : IsBatch v B sK j (M.Y s'' (c.Y s X)) := by rwa [hM.Y_of hcall.step.param]
    refine Run.bindNeed ((hM.jmpI hfM (hM.wired_of hcall.step.wiring hMw) hB hy hT) (some v) ?_) fun t s3 ht h3 => ?_
    · intro v' h; cases h; exact Or.inr hv'
    · refine hk v t s3 (by rwa [hM.Y_of hpar] at hv) ?_ (hcall.then hq h3.1 h3.2)
      exact ht.congr fun b i _ => by
        rw [J_snoc, Matrix.mul_assoc]
        rw [hM.J_of hcall.step.param, hM.J_of hpar]
  · intro y a s' hy hT hr
    obtain ⟨v, s1, hv, hV, hst, -⟩ := hM.forward (hM.wired_of hr.step.wiring hMw) hB hy
    have hcall : M.m.call y s' = (.ok v, s1) := call_unhooked hv (by rw [hst.hooks, hr.step.hooks]; exact hh)
    simp only [Sequential.jmpInput]
    refine Run.bind (show Run (M.m.call y) s' fun b s2 => b = v ∧ s2 = s1 from ⟨v, s1, hcall, rfl, rfl⟩) fun _ _ e => ?_
    obtain ⟨rfl, rfl⟩ := e
    refine Run.bindNeed ((hM.jmpI hfM (hM.wired_of (hr.step.wiring.trans hst.wiring) hMw) hB hy hT) (some _) ?_) fun t s3 ht h3 => ?_
    · intro v' h; cases h; exact Or.inr (by rwa [hM.Y_of hst.param])
    · refine Run.pure (ht.congr fun b i _ => ?_)
      rw [hM.J_of hst.param, hM.J_of hr.step.param]

end MChain

/-! ### a layer replaced -/

/-- the feature maps of `q` stop before entry `K + 1` -/
def Short (q K : Nat) (s : Store ℝ) : Prop := ∃ L, s.fmaps q = some L ∧ L.length ≤ K + 1

/-- started with too short a list, `p` raises IndexError -/
def NoEntry {β : Type} (q K : Nat) (p : Prog ℝ β) : Prop := ∀ s, Short q K s → p s = (.error .index, s)

theorem NoEntry.bind {β γ : Type} {q K : Nat} {p : Prog ℝ β} {f : β → Prog ℝ γ} (h : NoEntry q K p) : NoEntry q K (p >>= f) := fun s hs => by
  rw [Prog.bind_run, h s hs]

theorem noEntry_layer {β : Type} {q K : Nat} {ms : List (Mod ℝ)} (hk : K < ms.length) {f : Mod ℝ → Tensor ℝ → Tensor ℝ → Prog ℝ β} :
    NoEntry q K (do let m ← Sequential.child ms K; let x ← Sequential.fmap q K; let v ← Sequential.fmap q (K + 1); f m x v) := fun s hs => by
  obtain ⟨L, hL, hlen⟩ := hs
  rw [Prog.bind_ok (b := ms[K]) (s' := s) (by simp only [Sequential.child, List.getElem?_eq_getElem hk])]
  by_cases hK : K < L.length
  · rw [Prog.bind_ok (b := L[K]) (s' := s) (by simp only [Sequential.fmap, hL, List.getElem?_eq_getElem hK])]
    exact Prog.bind_error (by simp only [Sequential.fmap, hL, List.getElem?_eq_none hlen])
  · exact Prog.bind_error (by simp only [Sequential.fmap, hL, List.getElem?_eq_none (Nat.le_of_not_lt hK)])

section
variable {q K : Nat} {ms : List (Mod ℝ)}
theorem noEntry_vjpInput (hk : K < ms.length) (v : Tensor ℝ) : NoEntry q K (Sequential.vjpInput q ms (K + 1) v) := noEntry_layer hk
theorem noEntry_vjpWeight (hk : K < ms.length) (v : Tensor ℝ) (vs : List (Tensor ℝ)) : NoEntry q K (Sequential.vjpWeight q ms (K + 1) v vs) := noEntry_layer hk
theorem noEntry_mjpInput (hk : K < ms.length) (v : Tensor ℝ) : NoEntry q K (Sequential.mjpInput q ms (K + 1) v) := noEntry_layer hk
theorem noEntry_mjpWeight (hk : K < ms.length) (v : Tensor ℝ) (vs : List (Tensor ℝ)) : NoEntry q K (Sequential.mjpWeight q ms (K + 1) v vs) := noEntry_layer hk
theorem noEntry_jTmjpInput (hk : K < ms.length) (n : Nat) (a b c : Bool) (v : Option (Tensor ℝ)) : NoEntry q K (Sequential.jTmjpInput q n ms a b c (K + 1) v) := noEntry_layer hk
theorem noEntry_jTmjpWeight (hk : K < ms.length) (n : Nat) (a b c : Bool) (v : Option (Tensor ℝ)) (vs : List (PyVal ℝ)) :
    NoEntry q K (Sequential.jTmjpWeight q n ms a b c (K + 1) v vs) := noEntry_layer hk
end

theorem NoEntry.lift {β γ : Type} {q K : Nat} {r : Res β} {b : β} {f : β → Prog ℝ γ} (hr : r = .ok b) (h : NoEntry q K (f b)) :
    NoEntry q K ((liftM r : Prog ℝ β) >>= f) := fun s hs => by
  subst hr; exact h s hs

/-- after a forward pass that left too few entries, the backward passes raise IndexError -/
theorem short_call {id K np : Nat} {ms ml : List (Mod ℝ)} {v : Tensor ℝ} {st1 : Store ℝ} (hf : Sequential.forward id true ms x st = (.ok v, st1))
    (hs : Short id K st1) (hl : ml.length = K + 1) (hv : v.shape ≠ []) (c : Call) (hc : c.ReadsLast) (ha : c.PassesAsserts) :
    (c.run (Sequential.edited id true ms ml np) x none st).1 = .error .index := by
  have hlt : K < ml.length := by omega
  have fin : ∀ {β : Type} {p : Prog ℝ β} {f : β → PyVal ℝ}, p st = (.error .index, st1) → ((p >>= fun r => pure (f r)) st).1 = .error .index := by
    intro β p f h
    rw [Prog.bind_error h]
  have hmjp : ∀ M w, w = .input ∨ w = .weight → Sequential.mjpE id true ms ml x none M w st = (.error .index, st1) := by
    intro M w hw
    simp only [Sequential.mjpE, Sequential.getVal, hw, hl]
    refine (Prog.bind_ok hf).trans ?_
    have hA : ∀ A, NoEntry id K (match w with
        | .input => do
          let r ← Sequential.mjpInput id ml (K + 1) A
          pure (some r)
        | .weight => do
          let acc ← Sequential.mjpWeight id ml (K + 1) A []
          (Sequential.catOrNone 2 acc : Res _)
        | .other => pure none : Prog ℝ (Option (Tensor ℝ))) := by
      intro A
      rcases hw with rfl | rfl
      · exact (noEntry_mjpInput hlt A).bind
      · exact (noEntry_mjpWeight hlt A _).bind
    cases M with
    | none =>
      obtain ⟨I, hI⟩ := eyeFor_ok hv
      simp only [hI]
      exact hA I st1 hs
    | some M => exact hA M st1 hs
  cases c with
  | jacobian w => exact fin (hmjp none w ha)
  | mjp M w => exact fin (hmjp M w ha)
  | vjp u w =>
    refine fin ?_
    show Sequential.vjpE id true ms ml x none u w st = _
    have hw : w = .input ∨ w = .weight := ha
    simp only [Sequential.vjpE, Sequential.getVal, hw, hl]
    refine (Prog.bind_ok hf).trans ?_
    rcases hw with rfl | rfl
    · exact (noEntry_vjpInput hlt u).bind st1 hs
    · exact (noEntry_vjpWeight hlt u _).bind st1 hs
  | jmp M w =>
    cases M with
    | some M => exact hc.elim
    | none =>
      refine fin ?_
      show Sequential.jmpE id true ms ml np x none none w st = _
      have hw : w = .input ∨ w = .weight := ha
      simp only [Sequential.jmpE, hw]
      exact hmjp none w hw
  | jTmjp M w fd td db =>
    have ha : ((!db) || (db && fd && td)) = true := by
      have hd : db → fd ∧ td := ha
      cases db <;> cases fd <;> cases td <;> simp_all
    rename_i ha'
    clear ha' hc
    show (Sequential.jTmjpE id true ms ml x none M w fd td db st).1 = _
    simp only [Sequential.jTmjpE, Sequential.getVal, ha, hl]
    refine congrArg Prod.fst ((Prog.bind_ok hf).trans (?_ : _ = (.error .index, st1)))
    have hA : ∀ (A : Tensor ℝ) (fd : Bool), NoEntry id K (match w with
        | .input => do
          let r ← Sequential.jTmjpInput id (K + 1) ml fd td db (K + 1) (some A)
          pure (PyVal.ofOption r)
        | .weight => do
          let acc ← Sequential.jTmjpWeight id (K + 1) ml fd td db (K + 1) (some A) []
          if acc.length = 0 then pure .none
          else if td then do
            let ts ← (acc.mapM PyVal.toTensor : Res _)
            let r ← (Tensor.cat 1 ts : Res _)
            pure (.tensor r)
          else pure (.list acc)
        | .other => do
          let _ ← Sequential.jTmjpInput id (K + 1) ml fd td db (K + 1) (some A)
          pure .none : Prog ℝ (PyVal ℝ)) := by
      intro A fd
      cases w with
      | weight => exact (noEntry_jTmjpWeight hlt _ _ _ _ _ _).bind
      | _ => exact (noEntry_jTmjpInput hlt _ _ _ _ _).bind
    cases M with
    | some M => exact hA M fd st1 hs
    | none =>
      cases hs' : v.shape with
      | nil => exact (hv hs').elim
      | cons b s => exact hA (ones [b, size s]) true st1 hs
  | _ => exact hc.elim

theorem Replaced.forward {s1 s2 : List Nat} {n1 n2 l1 l2 p1 p2 id : Nat} {c1 : Chain s n s1 n1 p1 l1} {m : Net s1 n1 s2 n2 q} {c2 : Chain s2 n2 s' k p2 l2}
    (h : Replaced id c1 m c2 st) (hB : 0 < B) (hx : IsBatch x B s n X) :
    Run (Sequential.forward id true (c1.mods ++ m.mod :: c2.mods) x) st fun y st1 =>
      IsBatch y B s' k (fun b => c2.sem.f (c2.w st) (m.sem.f (m.w st) (c1.sem.f (c1.w st) (X b)))) ∧ Short id (l1 + l2) st1 := by
  have hnd := h.nodup
  simp only [List.nodup_cons, List.nodup_append, List.mem_append] at hnd
  obtain ⟨L, hL⟩ := Option.isSome_iff_exists.1 h.attr
  have g1 := Chain.good c1 hnd.2.1
  have g2 := Chain.good c2 hnd.2.2.1.2.1
  have gm := m.good hnd.2.2.1.1
  let t0 : Store ℝ := { st with fmaps := fun j => if j = id then some [x] else st.fmaps j }
  have hw0 : Wiring st t0 := by
    refine ⟨fun _ => rfl, rfl, fun i => ?_⟩
    show Option.isSome (if i = id then _ else _) = _
    split_ifs with h
    · subst h; simp [hL]
    · rfl
  have hw1 : c1.mchain.Wired id t0 := c1.mchain.wired_of g1 hw0 ((c1.mchain_wired id st).2 h.wired1)
  have hL1 : t0.fmaps id = some [x] := by show (if id = id then _ else _) = _; simp
  have r1 := MChain.run_loop (c := c1.mchain) g1 (by rw [Chain.mchain_ids]; simp only [List.nodup_cons]; tauto) hw1 hB hx hL1
  rw [Chain.mchain_mods] at r1
  obtain ⟨v, t1, hv, hV, hr1⟩ := r1
  have hwm : m.mdl.wired t1 := gm.wired_of (hw0.trans hr1.step.wiring) ((m.mdl_wired st).2 h.wiredm)
  have hm := gm.forward hwm hB hV
  rw [Net.mdl_m, Net.mdl_ids] at hm
  obtain ⟨y, t2, hy, hY, hs2, -⟩ := hm
  have hcall : m.mod.call v t1 = (.ok y, t2) := call_unhooked hy (by rw [hs2.hooks, hr1.step.hooks]; exact h.unhooked)
  obtain ⟨E, hE, hlen, -⟩ := hr1.fmaps
  have hL2 : t2.fmaps id = some ([x] ++ E) := by rw [(hs2.frame id (by tauto)).1, hE]
  have hw2 : c2.mchain.Wired id t2 := c2.mchain.wired_of g2 ((hw0.trans hr1.step.wiring).trans hs2.wiring) ((c2.mchain_wired id st).2 h.wired2)
  have r2 := MChain.run_loop (c := c2.mchain) g2 (by rw [Chain.mchain_ids]; simp only [List.nodup_cons]; tauto) hw2 hB hY hL2
  rw [Chain.mchain_mods] at r2
  obtain ⟨z, t3, hz, hZ, hr2⟩ := r2
  obtain ⟨E2, hE2, hlen2, -⟩ := hr2.fmaps
  refine ⟨z, t3, ?_, ?_, _, hE2, by simp [hlen, hlen2]⟩
  · show Sequential.run (c1.mods ++ m.mod :: c2.mods) x t0 = _
    rw [seq_run_append, Prog.bind_ok hv]
    simp only [Sequential.run]
    rw [Prog.bind_ok hcall]
    exact hz
  · have e1 : c1.mchain.w t0 = c1.w st := by rw [Chain.mchain_w]; exact (c1.mchain_w ▸ c1.mchain.w_of g1 (s := st) (s' := t0) rfl)
    have em : m.mdl.w t1 = m.w st := by rw [gm.w_of (s := st) hr1.step.param, Net.mdl_w]
    have e2 : c2.mchain.w t2 = c2.w st := by rw [c2.mchain.w_of g2 (s := st) (hs2.param.trans hr1.step.param), Chain.mchain_w]
    refine hZ.congr fun b i => ?_
    simp only [MChain.Y, Mdl.Y, e1, em, e2, Chain.mchain_S, Net.mdl_S]

/-! ### counting parameters -/

theorem jvpWeight_count (u : Tensor ℝ) (ms : List (Mod ℝ)) (x : Tensor ℝ) (p : Nat) (acc : Option (Tensor ℝ)) :
    Post (Sequential.jvpWeight u ms x p acc) fun r => r.2 = p + Sequential.nParams ms := by
  induction ms generalizing x p acc with
  | nil => exact Post.pure (by simp [Sequential.nParams])
  | cons m ms ih =>
    simp only [Sequential.jvpWeight]
    refine Post.any fun v => Post.any fun _ => Post.any fun _ => Post.any fun _ => Post.any fun a => (ih v (p + m.nParams) a).mono fun r hr => ?_
    rw [hr]; simp [Sequential.nParams]; omega

theorem jmpWeight_count (u : Tensor ℝ) (ms : List (Mod ℝ)) (x : Tensor ℝ) (p : Nat) (acc : Option (Tensor ℝ)) :
    Post (Sequential.jmpWeight u ms x p acc) fun r => r.2 = p + Sequential.nParams ms := by
  induction ms generalizing x p acc with
  | nil => exact Post.pure (by simp [Sequential.nParams])
  | cons m ms ih =>
    simp only [Sequential.jmpWeight]
    refine Post.any fun v => Post.any fun _ => Post.any fun _ => Post.any fun _ => Post.any fun a => (ih v (p + m.nParams) a).mono fun r hr => ?_
    rw [hr]; simp [Sequential.nParams]; omega

end
end NNJ
