import Verif.Proofs.Calls
import Verif.Spec.FeatureMaps

/-! The feature maps after calls on a Sequential. -/

namespace NNJ
open Tensor Matrix

namespace MChain
variable {sI sO : List Nat} {n k p l q B : Nat} {c : MChain sI n sO k p l} {X : Fin B → Fin n → ℝ} {s : Store ℝ} {x : Tensor ℝ}

/-- `seq_forward` with the list of feature maps -/
theorem seq_forward_maps (hg : c.AllGood) (hnd : (q :: c.ids).Nodup) (hw : (seqMdl q c).wired s) (hB : 0 < B) (hx : IsBatch x B sI n X) :
    Run (Sequential.forward q true c.mods x) s fun y s' => IsBatch y B sO k ((seqMdl q c).Y s X) ∧ Step (q :: c.ids) s s' ∧
      ∃ E, s'.fmaps q = some (x :: E) ∧ E.length = l ∧ listOk (x :: E) c B X (c.w s) := by
  obtain ⟨L, hL⟩ := Option.isSome_iff_exists.1 hw.1
  let s1 : Store ℝ := { s with fmaps := fun j => if j = q then some [x] else s.fmaps j }
  have st1 : Step (q :: c.ids) s s1 := by
    refine ⟨rfl, rfl, fun i => ?_, fun i hi => ⟨?_, rfl⟩⟩
    · show Option.isSome (if i = q then _ else _) = _
      split_ifs with h
      · subst h; simp [hL]
      · rfl
    · have h1 : i ≠ q := fun h => hi (by simp [h])
      show (if i = q then _ else _) = _
      simp only [h1, if_false]
  have hw1 : c.Wired q s1 := c.wired_of hg st1.wiring hw.2
  have hL1 : s1.fmaps q = some [x] := by show (if q = q then _ else _) = _; simp
  obtain ⟨y, s2, hy, hb, hr⟩ := run_loop hg hnd hw1 hB hx hL1
  refine ⟨y, s2, ?_, ?_, st1.trans hr.step, ?_⟩
  · show Sequential.run c.mods x s1 = _
    exact hy
  · rw [c.Y_of hg (s := s) (s' := s1) rfl] at hb; exact hb
  · obtain ⟨E, hE, hlen, hl⟩ := hr.fmaps
    refine ⟨E, hE, hlen, ?_⟩
    rw [c.w_of hg (s := s) (s' := s1) rfl] at hl
    exact hl

theorem layerByLayer_of {c : MChain sI n sO k p l} {L : List (Tensor ℝ)} {st : Store ℝ} (hg : c.AllGood) (hw : c.Wired q st) (hB : 0 < B)
    (hl : listOk L c B X (c.w st)) : LayerByLayer c.mods L st := by
  induction c with
  | nil => intro j m hj; simp [mods] at hj
  | @snoc sO sK _ k j p r l c M ih =>
    have hl' : listOk L c B X (wl (Fin.append (c.w st) (M.w st))) := hl.1
    rw [wl_append] at hl'
    intro i m hi
    rw [mods] at hi
    by_cases h : i < c.mods.length
    · rw [List.getElem?_append_left h] at hi
      exact ih hg.1 hw.1 hl' i m hi
    · have hi' : i = l := by
        have := (List.getElem?_eq_some_iff.1 hi).1
        simp only [List.length_append, List.length_singleton] at this
        have := c.mods_length
        omega
      subst hi'
      have hm : m = M.m := by
        rw [List.getElem?_append_right (by omega)] at hi
        simpa [c.mods_length] using hi.symm
      subst hm
      obtain ⟨a, ha, hab⟩ := listOk_last hl'
      obtain ⟨b, hb, hbb⟩ := hl.2
      obtain ⟨v, hv, _, hvb, _⟩ := (hg.2.forward hw.2.1 hB hab).returns
      refine ⟨a, b, v, ha, hb, hv, teq_batch hg.2.hk hvb (hbb.congr fun _ _ => ?_)⟩
      simp only [w, Sem.comp, Mdl.Y, wl_append, wr_append]

end MChain

/-- A reverse-mode product without `val` is `forward` followed by the product with its value. -/
theorem Sequential.vjp_none {id : Nat} {ms : List (Mod ℝ)} {x v : Tensor ℝ} {u : Tensor ℝ} {wrt : Wrt} {s s' : Store ℝ}
    (hw : wrt = .input ∨ wrt = .weight) (h : Sequential.forward id true ms x s = (.ok v, s')) :
    Sequential.vjp id true ms x none u wrt s = Sequential.vjp id true ms x (some v) u wrt s' := by
  unfold Sequential.vjp
  rcases hw with rfl | rfl
  all_goals exact Prog.bind_ok (p := Sequential.forward id true ms x) h

theorem Sequential.mjp_none {id : Nat} {ms : List (Mod ℝ)} {x v : Tensor ℝ} {A : Option (Tensor ℝ)} {wrt : Wrt} {s s' : Store ℝ}
    (hw : wrt = .input ∨ wrt = .weight) (h : Sequential.forward id true ms x s = (.ok v, s')) :
    Sequential.mjp id true ms x none A wrt s = Sequential.mjp id true ms x (some v) A wrt s' := by
  unfold Sequential.mjp
  rcases hw with rfl | rfl
  all_goals exact Prog.bind_ok (p := Sequential.forward id true ms x) h

theorem Sequential.jTmjp_none {id : Nat} {ms : List (Mod ℝ)} {x v : Tensor ℝ} {A : Option (Tensor ℝ)} {wrt : Wrt} {fd td db : Bool} {s s' : Store ℝ}
    (hw : wrt = .input ∨ wrt = .weight) (hdb : db = true → fd = true ∧ td = true) (h : Sequential.forward id true ms x s = (.ok v, s')) :
    Sequential.jTmjp id true ms x none A wrt fd td db s = Sequential.jTmjp id true ms x (some v) A wrt fd td db s' := by
  unfold Sequential.jTmjp
  have hb : (!db || db && fd && td) = true := by
    cases db
    · rfl
    · obtain ⟨rfl, rfl⟩ := hdb rfl; rfl
  rw [hb]
  rcases hw with rfl | rfl
  all_goals exact Prog.bind_ok (p := Sequential.forward id true ms x) h

theorem Sequential.mjp_eye {id : Nat} {ms : List (Mod ℝ)} {x v A : Tensor ℝ} {wrt : Wrt} {s : Store ℝ} (hw : wrt = .input ∨ wrt = .weight) (hA : Sequential.eyeFor v = .ok A) :
    Sequential.mjp id true ms x (some v) none wrt s = Sequential.mjp id true ms x (some v) (some A) wrt s := by
  unfold Sequential.mjp
  rcases hw with rfl | rfl
  all_goals
    show ((liftM (Sequential.eyeFor v) : Prog ℝ _) >>= _) s = _
    rw [hA]
    rfl

section
variable {s s' : List Nat} {n k p l id : Nat} {c : Chain s n s' k p (l + 1)} {st : Store ℝ} {B : Nat} {X : Fin B → Fin n → ℝ} {x : Tensor ℝ}

theorem Net.Ok.chain (h : (Net.seq id c).Ok st) : c.mchain.AllGood ∧ (id :: c.mchain.ids).Nodup ∧ (seqMdl id c.mchain).wired st := by
  have hnd := h.nodup
  simp only [Net.ids] at hnd
  refine ⟨Chain.good c (List.nodup_cons.1 hnd).2, by rw [Chain.mchain_ids]; exact hnd, ?_⟩
  have := h.w
  simpa only [Net.mdl] using this

/-- `forward` on a Sequential -/
theorem Net.Ok.forward_maps (h : (Net.seq id c).Ok st) (hB : 0 < B) (hx : IsBatch x B s n X) :
    Run ((Net.seq id c).mod.forward x) st fun y st' => IsBatch y B s' k ((Net.seq id c).mdl.Y st X) ∧ Step (id :: c.mchain.ids) st st' ∧
      (Net.seq id c).mdl.cache B X st' ∧
      ∃ E, st'.fmaps id = some (x :: E) ∧ E.length = l + 1 ∧ MChain.listOk (x :: E) c.mchain B X (c.mchain.w st) := by
  obtain ⟨hg, hnd, hw⟩ := h.chain
  obtain ⟨y, st', e, hy, hs, hm⟩ := MChain.seq_forward_maps hg hnd hw hB hx
  obtain ⟨y', st'', e', _, _, hc⟩ := MChain.seq_forward hg hnd hw hB hx
  rw [e] at e'
  cases e'
  refine ⟨y, st', ?_, ?_, hs, ?_, hm⟩
  · rw [Chain.mchain_mods] at e
    simp only [Net.mod]
    exact e
  · simpa only [Net.mdl] using hy
  · simpa only [Net.mdl] using hc

/-- Reverse-mode products without `val` leave the state that `forward` leaves. -/
theorem Net.Ok.reverse_state (h : (Net.seq id c).Ok st) (hB : 0 < B) (hx : IsBatch x B s n X) (cl : Call) (hr : cl.Resets)
    (hv : cl.Valid (Net.seq id c) B) : (cl.run (Net.seq id c).mod x none st).2 = ((Net.seq id c).mod.forward x st).2 := by
  obtain ⟨y, st1, e, hy, hs, hc, -⟩ := h.forward_maps hB hx
  rw [e]
  have h1 : (Net.seq id c).Ok st1 := h.of_wiring hs.wiring
  have hV : (Net.seq id c).mdl.VOk st1 X y := Or.inl (by simp only [Net.mdl, seqMdl])
  have e' : Sequential.forward id true c.mods x st = (.ok y, st1) := by simp only [Net.mod] at e; exact e
  have fin : ∀ {β : Type} {p : Prog ℝ β} {q : Prog ℝ β} {f : β → PyVal ℝ} {post : β → Prop}, p st = q st1 →
      Run q st1 (fun r s'' => post r ∧ s'' = st1) → ((p >>= fun r => pure (f r)) st).2 = st1 := by
    intro β p q f post hpq ⟨r, s'', hr, _, hs⟩
    rw [← hpq] at hr
    rw [Prog.bind_ok hr]
    exact hs
  have hy1 : IsBatch y B s' k fun b => (Net.seq id c).mdl.Y st X b := hy
  obtain ⟨I, hI, hIm⟩ := MChain.eyeFor_ret h.g.hk hy1
  cases cl with
  | forward => exact hr.elim
  | jvp v wrt => exact hr.elim
  | jmp M wrt => exact hr.elim
  | jmjTp M wrt fd td db => exact hr.elim
  | jacobian wrt =>
    cases wrt with
    | other => exact hv.elim
    | input =>
      have := (h1.g.mjpI h1.w hB hx h.g.kpos hIm).1 y hV hc
      rw [Net.mdl_m] at this
      refine fin (f := PyVal.ofOption) ?_ this
      simp only [Net.mod]
      show Sequential.mjp id true c.mods x none none .input st = Sequential.mjp id true c.mods x (some y) (some I) .input st1
      rw [Sequential.mjp_none (Or.inl rfl) e', Sequential.mjp_eye (Or.inl rfl) hI]
    | weight =>
      have := (h1.g.mjpW h1.w hB hx h.g.kpos hIm).1 y hV hc
      rw [Net.mdl_m] at this
      refine fin (f := PyVal.ofOption) ?_ this
      simp only [Net.mod]
      show Sequential.mjp id true c.mods x none none .weight st = Sequential.mjp id true c.mods x (some y) (some I) .weight st1
      rw [Sequential.mjp_none (Or.inr rfl) e', Sequential.mjp_eye (Or.inr rfl) hI]
  | vjp v wrt =>
    cases wrt with
    | other => exact hv.elim
    | input =>
      have := (h1.g.vjpI h1.w hB hx (isVec_vecOf hv)).1 y hV hc
      rw [Net.mdl_m] at this
      refine fin (f := PyVal.ofOption) ?_ this
      simp only [Net.mod]
      exact Sequential.vjp_none (Or.inl rfl) e'
    | weight =>
      have := (h1.g.vjpW h1.w hB hx (isVec_vecOf hv)).1 y hV hc
      rw [Net.mdl_m] at this
      refine fin (f := PyVal.ofOption) ?_ this
      simp only [Net.mod]
      exact Sequential.vjp_none (Or.inr rfl) e'
  | mjp M wrt =>
    cases M with
    | none => cases wrt <;> exact hv.elim
    | some M =>
    cases wrt with
    | other => exact hv.elim
    | input =>
      obtain ⟨r, hr, hM⟩ := hv
      have := (h1.g.mjpI h1.w hB hx hr (isMat_matOf hM)).1 y hV hc
      rw [Net.mdl_m] at this
      refine fin (f := PyVal.ofOption) ?_ this
      simp only [Net.mod]
      exact Sequential.mjp_none (A := some M) (Or.inl rfl) e'
    | weight =>
      obtain ⟨r, hr, hM⟩ := hv
      have := (h1.g.mjpW h1.w hB hx hr (isMat_matOf hM)).1 y hV hc
      rw [Net.mdl_m] at this
      refine fin (f := PyVal.ofOption) ?_ this
      simp only [Net.mod]
      exact Sequential.mjp_none (A := some M) (Or.inr rfl) e'
  | jTmjp M wrt fd td db =>
    have fin' : ∀ {p : Prog ℝ (PyVal ℝ)} {q : Prog ℝ (PyVal ℝ)} {post : PyVal ℝ → Prop}, p st = q st1 →
        Run q st1 (fun r s'' => post r ∧ s'' = st1) → (p st).2 = st1 := by
      intro p q post hpq ⟨r, s'', hr, _, hs⟩
      rw [hpq, hr]
      exact hs
    cases M with
    | none => cases wrt <;> exact hv.elim
    | some M =>
    cases wrt with
    | other => exact hv.elim
    | input =>
      obtain ⟨hM, hdb⟩ := hv
      have e2 : (Net.seq id c).mod.jTmjp x none (some M) .input fd td db st = (Net.seq id c).mod.jTmjp x (some y) (some M) .input fd td db st1 := by
        simp only [Net.mod]
        exact Sequential.jTmjp_none (A := some M) (Or.inl rfl) hdb e'
      cases db with
      | false =>
        have := (h1.g.jTI fd td h1.w hB hx (isMetric_metricOf hM)).1 y hV hc
        rw [Net.mdl_m] at this
        exact fin' e2 this
      | true =>
        obtain ⟨rfl, rfl⟩ := hdb rfl
        have := (h1.g.jTIdb h1.w hB hx (isVec_vecOf hM)).1 y hV hc
        rw [Net.mdl_m] at this
        exact fin' e2 this
    | weight =>
      obtain ⟨hM, hdb⟩ := hv
      have e2 : (Net.seq id c).mod.jTmjp x none (some M) .weight fd td db st = (Net.seq id c).mod.jTmjp x (some y) (some M) .weight fd td db st1 := by
        simp only [Net.mod]
        exact Sequential.jTmjp_none (A := some M) (Or.inr rfl) hdb e'
      cases db with
      | false =>
        cases td with
        | true =>
          have := (h1.g.jTWd fd h1.w hB hx (isMetric_metricOf hM)).1 y hV hc
          rw [Net.mdl_m] at this
          exact fin' e2 this
        | false =>
          have := (h1.g.jTWf fd h1.w hB hx (isMetric_metricOf hM)).1 y hV hc
          rw [Net.mdl_m] at this
          exact fin' e2 this
      | true =>
        obtain ⟨rfl, rfl⟩ := hdb rfl
        have := (h1.g.jTWdb h1.w hB hx (isVec_vecOf hM)).1 y hV hc
        rw [Net.mdl_m] at this
        exact fin' e2 this

/-- Forward-mode products append one entry for each layer. -/
theorem Net.Ok.forwardMode_maps (h : (Net.seq id c).Ok st) {L : List (Tensor ℝ)} (hL : st.fmaps id = some L) (hB : 0 < B)
    (hx : IsBatch x B s n X) (cl : Call) (hr : cl.Appends) (hv : cl.Valid (Net.seq id c) B) (val : Option (Tensor ℝ)) :
    Run (cl.run (Net.seq id c).mod x val) st fun _ st' => Step (id :: c.mchain.ids) st st' ∧
      ∃ E, st'.fmaps id = some (L ++ E) ∧ E.length = l + 1 ∧ MChain.listOk (x :: E) c.mchain B X (c.mchain.w st) := by
  obtain ⟨hg, hnd, hw⟩ := h.chain
  cases cl with
  | forward => exact hr.elim
  | jacobian wrt => exact hr.elim
  | vjp v wrt => exact hr.elim
  | mjp v wrt => exact hr.elim
  | jTmjp M wrt fd td db => exact hr.elim
  | jmjTp M wrt fd td db => exact hr.elim
  | jvp v wrt =>
    cases wrt with
    | other => exact hv.elim
    | input =>
      obtain ⟨hf, hs⟩ := hv
      have hf' : c.mchain.fwdI := by have := (Net.seq id c).mdl_fwdI.2 hf; simpa only [Net.mdl, seqMdl] using this
      have := MChain.jvpInput_loop hg hf' hnd hw.2 hB hx hL (isVec_vecOf hs)
      rw [Chain.mchain_mods] at this
      simp only [Call.run, Net.mod]
      exact (this.bind fun t s' ⟨ht, hr⟩ => Run.pure (b := some t) ⟨hr.step, hr.fmaps⟩).bind fun _ _ h => Run.pure h
    | weight =>
      obtain ⟨hf, hfW, hs⟩ := hv
      have hf' : c.mchain.fwdI := by have := (Net.seq id c).mdl_fwdI.2 hf; simpa only [Net.mdl, seqMdl] using this
      have hfW' : c.mchain.fwdW := by have := (Net.seq id c).mdl_fwdW.2 hfW; simpa only [Net.mdl, seqMdl] using this
      have := MChain.jvpWeight_loop hg hf' hfW' hnd hw.2 hB hx hL (isVec_vecOf hs)
      have hnp := c.mchain.nParams hg
      rw [Chain.mchain_mods] at this hnp
      simp only [Call.run, Net.mod]
      exact (this.bind fun t s' ⟨ht, hi, hr⟩ =>
        Run.bindAssert (by simp only [hi, hnp, decide_true]) (Run.pure (b := t.1) ⟨hr.step, hr.fmaps⟩)).bind fun _ _ h => Run.pure h
  | jmp M wrt =>
    cases M with
    | none => cases wrt <;> exact hv.elim
    | some M =>
    cases wrt with
    | other => exact hv.elim
    | input =>
      obtain ⟨hf, r, hs⟩ := hv
      have hf' : c.mchain.fwdI := by have := (Net.seq id c).mdl_fwdI.2 hf; simpa only [Net.mdl, seqMdl] using this
      have := MChain.jmpInput_loop hg hf' hnd hw.2 hB hx hL (isMat_matOf hs)
      rw [Chain.mchain_mods] at this
      simp only [Call.run, Net.mod]
      exact (this.bind fun t s' ⟨ht, hr⟩ => Run.pure (b := some t) ⟨hr.step, hr.fmaps⟩).bind fun _ _ h => Run.pure h
    | weight =>
      obtain ⟨hf, hfW, r, hs⟩ := hv
      have hf' : c.mchain.fwdI := by have := (Net.seq id c).mdl_fwdI.2 hf; simpa only [Net.mdl, seqMdl] using this
      have hfW' : c.mchain.fwdW := by have := (Net.seq id c).mdl_fwdW.2 hfW; simpa only [Net.mdl, seqMdl] using this
      have := MChain.jmpWeight_loop hg hf' hfW' hnd hw.2 hB hx hL (isMat_matOf hs)
      have hnp := c.mchain.nParams hg
      rw [Chain.mchain_mods] at this hnp
      simp only [Call.run, Net.mod]
      exact (this.bind fun t s' ⟨ht, hi, hr⟩ =>
        Run.bindAssert (by simp only [hi, hnp, decide_true]) (Run.pure (b := t.1) ⟨hr.step, hr.fmaps⟩)).bind fun _ _ h => Run.pure h

end
end NNJ
