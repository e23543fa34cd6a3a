import Verif.Proofs.SeqJmj

/-! The contract of Sequential. -/

namespace NNJ
open Tensor Matrix

/-- a Sequential with its semantics -/
noncomputable def seqMdl {sI sO : List Nat} {n k p l : Nat} (q : Nat) (c : MChain sI n sO k p l) : Mdl sI n sO k p where
  m := Sequential.mod q true c.mods
  S := c.S
  ids := q :: c.ids
  wired s := (s.fmaps q).isSome ∧ c.Wired q s
  w := c.w
  cache B X s := (∃ L, s.fmaps q = some L ∧ MChain.listOk L c B X (c.w s)) ∧ c.kids B X s
  anyVal := True
  blocks v B Z := ∃ vs, v = .list vs ∧ c.blocks vs B Z
  arg fd v B Z := (∃ t, v = .tensor t ∧ MetricArg fd t B p Z) ∨ ∃ vs, v = .list vs ∧ MChain.args fd vs c B Z
  fwdI := c.fwdI
  fwdW := c.fwdW
  pushW := c.pushW

namespace MChain

variable {sI sO : List Nat} {n k p l q B : Nat} {c : MChain sI n sO k p l} {X : Fin B → Fin n → ℝ} {s : Store ℝ} {x : Tensor ℝ}
variable (hg : c.AllGoodI) (hnd : (q :: c.ids).Nodup) (hw : (seqMdl q c).wired s) (hB : 0 < B) (hx : IsBatch x B sI n X)

include hg hnd hw hB hx in
theorem seq_forward : Run (Sequential.forward q true c.mods x) s fun y s' =>
    IsBatch y B sO k ((seqMdl q c).Y s X) ∧ Step (seqMdl q c).ids s s' ∧ (seqMdl q c).cache B X s' := by
  obtain ⟨L, hL⟩ := Option.isSome_iff_exists.1 hw.1
  let s1 : Store ℝ := { s with fmaps := fun j => if j = q then some [x] else s.fmaps j }
  have st1 : Step (q :: c.ids) s s1 := by
    refine ⟨rfl, rfl, fun i => ?_, fun i hi => ⟨?_, rfl⟩⟩
    · show Option.isSome (if i = q then _ else _) = _
      split_ifs with h
      · subst h; simp [hL]
      · rfl
    · have h1 : i ≠ q := fun h => hi (by simp [h])
      show (if i = q then _ else _) = _
      simp only [h1, if_false]
  have hw1 : c.Wired q s1 := c.wired_of hg st1.wiring hw.2
  have hL1 : s1.fmaps q = some [x] := by show (if q = q then _ else _) = _; simp
  obtain ⟨y, s2, hy, hb, hr⟩ := run_loop hg hnd hw1 hB hx hL1
  refine ⟨y, s2, ?_, ?_, st1.trans hr.step, ?_, hr.kids⟩
  · show Sequential.run c.mods x s1 = _
    exact hy
  · rw [c.Y_of hg (s := s) (s' := s1) rfl] at hb; exact hb
  · obtain ⟨E, hE, _, hl⟩ := hr.fmaps
    refine ⟨_, hE, ?_⟩
    rw [c.w_of hg hr.step.param]
    exact hl

/-- what the loops need -/
theorem env_of_cache (hc : (seqMdl q c).cache B X s) (hw : (seqMdl q c).wired s) : Env q c B X s := ⟨hw.2, hc.2, hc.1⟩

include hg hnd hw hB hx in
theorem seq_back {β : Type} {f : Tensor ℝ → Prog ℝ β} {post : β → Prop}
    (hf : ∀ s' v, s'.param = s.param → (seqMdl q c).wired s' → Env q c B X s' → Run (f v) s' fun r s'' => post r ∧ s'' = s') :
    (seqMdl q c).Back s X (fun val => Sequential.getVal q true c.mods x val >>= f) post := by
  refine ⟨fun v _ hc => hf s v rfl hw (env_of_cache hc hw), ?_⟩
  refine (seq_forward hg hnd hw hB hx).bind fun v s' ⟨_, hst, hc⟩ => ?_
  have hw' : (seqMdl q c).wired s' := ⟨by rw [hst.some]; exact hw.1, c.wired_of hg hst.wiring hw.2⟩
  refine (hf s' v hst.param hw' (env_of_cache hc hw')).mono fun r s'' ⟨hr, hs⟩ => ?_
  subst hs
  exact ⟨hr, hst, hc⟩

include hg hnd hw hB hx in
theorem seq_backS {β : Type} {f : Tensor ℝ → Prog ℝ β} {post : β → Prop}
    (hf : ∀ s' v, s'.param = s.param → (seqMdl q c).wired s' → Env q c B X s' → Run (f v) s' fun r s'' => post r ∧ Kept c B X s' s'') :
    (seqMdl q c).BackS s X (fun val => Sequential.getVal q true c.mods x val >>= f) post := by
  have key : ∀ s' v, s'.param = s.param → (seqMdl q c).wired s' → (seqMdl q c).cache B X s' →
      Run (f v) s' fun r s'' => post r ∧ Step (seqMdl q c).ids s' s'' ∧ (seqMdl q c).cache B X s'' := by
    intro s' v hpar hw' hc
    refine (hf s' v hpar hw' (env_of_cache hc hw')).mono fun r s'' ⟨hr, hk⟩ =>
      ⟨hr, hk.step.mono fun i hi => List.mem_cons_of_mem _ hi, ?_, hk.kids⟩
    rw [(hk.step.frame q (List.nodup_cons.1 hnd).1).1, c.w_of hg hk.step.param]
    exact hc.1
  refine ⟨fun v _ hc => key s v rfl hw hc, ?_⟩
  refine (seq_forward hg hnd hw hB hx).bind fun v s' ⟨_, hst, hc⟩ => ?_
  have hw' : (seqMdl q c).wired s' := ⟨by rw [hst.some]; exact hw.1, c.wired_of hg hst.wiring hw.2⟩
  refine (key s' v hst.param hw' hc).mono fun r s'' ⟨hr, hs, hc⟩ => ⟨hr, hst.trans hs, hc⟩

include hg hw in
theorem seq_fwd {β : Type} {f : Prog ℝ β} {post : β → Prop}
    (hf : ∀ L, s.fmaps q = some L → Run f s fun r s' => post r ∧ Ran q c B X x L s s') :
    (seqMdl q c).Fwd s X (fun _ => f) post := by
  intro val _
  obtain ⟨L, hL⟩ := Option.isSome_iff_exists.1 hw.1
  refine (hf L hL).mono fun r s' ⟨hr, hran⟩ => ⟨hr, hran.step, fun hc => ⟨?_, hran.kids⟩⟩
  obtain ⟨⟨L', hL', hl⟩, _⟩ := hc
  obtain ⟨E, hE, _, _⟩ := hran.fmaps
  rw [hL] at hL'
  cases hL'
  refine ⟨_, hE, ?_⟩
  rw [c.w_of hg hran.step.param]
  exact listOk_append hl

theorem J_of {s s' : Store ℝ} (hg : c.AllGoodI) (e : s'.param = s.param) : c.J s' X = c.J s X := by
  funext b; simp only [J, c.w_of hg e]
theorem JW_of {s s' : Store ℝ} (hg : c.AllGoodI) (e : s'.param = s.param) : c.JW s' X = c.JW s X := by
  funext b; simp only [JW, c.w_of hg e]
theorem Q_of {s s' : Store ℝ} (hg : c.AllGoodI) (e : s'.param = s.param) : c.Q s' X = c.Q s X := by
  funext b; simp only [Q, c.w_of hg e]
theorem QW_of {s s' : Store ℝ} (hg : c.AllGoodI) (e : s'.param = s.param) : c.QW s' X = c.QW s X := by
  funext b; simp only [QW, c.w_of hg e]

theorem npar_zero (c : MChain sI n sO k p l) : c.npar = 0 ↔ p = 0 := by
  induction c with
  | nil => simp [npar]
  | @snoc _ _ _ _ _ p r l c M ih =>
    simp only [npar]
    split_ifs with h
    · simp [ih, h]
    · have : p + r ≠ 0 := fun h' => h (by omega)
      exact iff_of_false (by simp) this

theorem mapM_tensor (ts : List (Tensor ℝ)) : (ts.map PyVal.tensor).mapM PyVal.toTensor = .ok ts := by
  induction ts with
  | nil => rfl
  | cons t ts ih => simp only [List.map_cons, List.mapM_cons, PyVal.toTensor, ih]; rfl

/-- the tail of `jTmjp` wrt weight with diagonal output -/
theorem catWeights {vs : List (PyVal ℝ)} {ts : List (Tensor ℝ)} {Z : Fin B → Fin p → ℝ} (hvs : vs = ts.map .tensor) (h : CatV ts B p Z) :
    Run (if vs.length = 0 then Pure.pure PyVal.none
      else do
        let ts ← (vs.mapM PyVal.toTensor : Res _)
        let r ← (Tensor.cat 1 ts : Res _)
        Pure.pure (PyVal.tensor r)) s fun r s' => OptV p (IsTensor fun t => IsVec t B p Z) r ∧ s' = s := by
  subst hvs
  unfold CatV at h
  unfold OptV
  by_cases hp : p = 0
  · simp only [hp, if_true] at h ⊢
    subst h
    exact Run.pure ⟨rfl, rfl⟩
  · simp only [hp, if_false] at h ⊢
    have h1 : ¬ (ts.map PyVal.tensor).length = 0 := by simpa using h.1
    simp only [h1, if_false]
    rw [mapM_tensor]
    obtain ⟨t, ht, hv⟩ := h.2
    refine ⟨.tensor t, s, ?_, hv, rfl⟩
    show ((liftM (Tensor.cat 1 ts) : Prog ℝ _) >>= _) s = _
    rw [ht]
    rfl

theorem eyeFor_ret {v : Tensor ℝ} {Y : Fin B → Fin k → ℝ} (hk : size sO = k) (hv : IsBatch v B sO k Y) :
    Ret (Sequential.eyeFor v) fun r => IsMat r B k k fun _ => 1 := by
  unfold Sequential.eyeFor
  rw [hv.1]
  simp only [hk]
  refine Ret.ok ⟨rfl, fun b i j => ?_⟩
  rw [get_ofFn _ (by simp)]
  simp [one_apply, Fin.ext_iff]

/-- the pieces of a weight metric -/
theorem split_ok {fd : Bool} {t : Tensor ℝ} {Z : Fin B → Matrix (Fin p) (Fin p) ℝ} (hg : c.AllGood) (ht : MetricArg fd t B p Z) :
    Ret (Sequential.splitBlocks t fd c.mods 0) fun v => v.2 = p ∧ pieces fd v.1 c B Z := by
  have := splitBlocks_ret (c := c) ht hg le_rfl [] (R := fun v => v = ([], p)) (Ret.ok rfl)
  rw [List.append_nil] at this
  refine this.mono fun v ⟨vs1, vs2, hv, _, hp, hR⟩ => ?_
  have h1 := congrArg Prod.fst hR
  have h2 := congrArg Prod.snd hR
  simp only at h1 h2
  refine ⟨h2, ?_⟩
  rw [hv, h1, List.append_nil]
  exact hp

end MChain

open MChain in
theorem good_seqI {sI sO : List Nat} {n k p l : Nat} {q : Nat} {c : MChain sI n sO k p (l + 1)} (hg : c.AllGoodI)
    (hnd : (q :: c.ids).Nodup) : GoodI (seqMdl q c) := by
  have hsz := c.sizes hg
  have hlen := c.mods_length
  exact
  { hn := hsz.1
    hk := hsz.2.2.1
    npos := hsz.2.1
    kpos := hsz.2.2.2
    id_mem := List.mem_cons_self
    wired_of := @fun s s' h hw => ⟨by rw [h.some]; exact hw.1, c.wired_of hg h hw.2⟩
    w_of := @fun s s' h => c.w_of hg h
    cache_frame := @fun B X s s' e hf hc => by
      refine ⟨?_, c.kids_frame hg e (fun i hi => hf i (List.mem_cons_of_mem _ hi)) hc.2⟩
      rw [(hf q List.mem_cons_self).1, c.w_of hg e]
      exact hc.1
    forward := @fun s B X x hw hB hx => seq_forward hg hnd hw hB hx
    jacI := @fun s B X x hw hB hx => by
      refine Run.mono (P := fun r s' => _) (Run.bindAssert rfl (Run.bind (seq_forward hg hnd hw hB hx) fun v s' ⟨hv, hst, hc⟩ => ?_)) fun _ _ h => h
      have hw' : (seqMdl q c).wired s' := ⟨by rw [hst.some]; exact hw.1, c.wired_of hg hst.wiring hw.2⟩
      refine Run.bindLift (eyeFor_ret hsz.2.2.1 hv) fun A hA => ?_
      have := mjpInput_loop hg hB (env_of_cache hc hw') [] hsz.2.2.2 hA
      rw [List.append_nil] at this
      rw [hlen]
      refine this.bind fun t s'' ⟨ht, hs⟩ => Run.pure ⟨?_, ?_⟩
      · exact IsMat.congr ht fun b i j => by rw [Matrix.one_mul, c.J_of hg hst.param]; rfl
      · subst hs; exact ⟨hst, hc⟩
    vjpI := @fun s B X x u U hw hB hx hu =>
      seq_back hg hnd hw hB hx (f := fun _ => do let r ← Sequential.vjpInput q c.mods c.mods.length u; Pure.pure (some r))
        fun s' v hpar hw' he => by
          have := vjpInput_loop hg hB he [] hu
          rw [List.append_nil] at this
          rw [hlen]
          refine this.bind fun t s'' ⟨ht, hs⟩ => Run.pure ⟨?_, hs⟩
          rw [c.J_of hg hpar] at ht; exact ht
    mjpI := @fun s B X x r A Z hw hB hx hr hA =>
      seq_back hg hnd hw hB hx (f := fun _ => do let r ← Sequential.mjpInput q c.mods c.mods.length A; Pure.pure (some r))
        fun s' v hpar hw' he => by
          have := mjpInput_loop hg hB he [] hr hA
          rw [List.append_nil] at this
          rw [hlen]
          refine this.bind fun t s'' ⟨ht, hs⟩ => Run.pure ⟨?_, hs⟩
          rw [c.J_of hg hpar] at ht; exact ht
    jTI := @fun s B X x A Z fd td hw hB hx hA =>
      seq_back hg hnd hw hB hx (f := fun _ => do
          let r ← Sequential.jTmjpInput q c.mods.length c.mods fd td false c.mods.length (some A)
          Pure.pure (PyVal.ofOption r))
        fun s' v hpar hw' he => by
          have := jTmjpInput_loop (td := td) hg hB he [] le_rfl (A := A) (Z := Z) (fd := fd) (by simpa using hA)
          rw [List.append_nil] at this
          rw [hlen]
          refine this.bind fun t s'' ⟨ht, hs⟩ => Run.pure ⟨?_, hs⟩
          simp only [Nat.succ_ne_zero, if_false] at ht
          rw [c.J_of hg hpar] at ht
          exact IsTensor.ofOption ht
    jTIdb := @fun s B X x A d hw hB hx hA =>
      seq_back hg hnd hw hB hx (f := fun _ => do
          let r ← Sequential.jTmjpInput q c.mods.length c.mods true true true c.mods.length (some A)
          Pure.pure (PyVal.ofOption r))
        fun s' v hpar hw' he => by
          have := jTmjpInput_db (N := l + 1) hg hB he [] hA
          rw [List.append_nil] at this
          rw [hlen]
          refine this.bind fun t s'' ⟨ht, hs⟩ => Run.pure ⟨?_, hs⟩
          rw [c.Q_of hg hpar] at ht
          exact IsTensor.ofOption ht }

open MChain in
theorem good_seq {sI sO : List Nat} {n k p l : Nat} {q : Nat} {c : MChain sI n sO k p (l + 1)} (hg : c.AllGood)
    (hnd : (q :: c.ids).Nodup) : Good (seqMdl q c) := by
  have hsz := c.sizes hg
  have hlen := c.mods_length
  exact
  { good_seqI hg.toI hnd with
    nParams := c.nParams hg
    arg_of_metric := @fun fd t B Z h => Or.inl ⟨t, rfl, h⟩
    arg_of_blocks := @fun v B Z ⟨vs, hv, hb⟩ => Or.inr ⟨vs, hv, c.args_of_blocks hg hb⟩
    blocks_ne := @fun v B Z ⟨vs, hv, hb⟩ h => by subst hv; cases h
    mask_diag := c.mask_diag hg
    jacW := @fun s B X x hw hB hx _ => by
      refine Run.mono (P := fun r s' => _) (Run.bindAssert rfl (Run.bind (seq_forward hg hnd hw hB hx) fun v s' ⟨hv, hst, hc⟩ => ?_)) fun _ _ h => h
      have hw' : (seqMdl q c).wired s' := ⟨by rw [hst.some]; exact hw.1, c.wired_of hg hst.wiring hw.2⟩
      refine Run.bindLift (eyeFor_ret hsz.2.2.1 hv) fun A hA => ?_
      have := mjpWeight_loop hg hB (env_of_cache hc hw') [] hsz.2.2.2 hA []
      rw [List.append_nil] at this
      rw [hlen]
      refine this.bind fun t s'' ⟨⟨ts, hts, hcat⟩, hs⟩ => ?_
      subst hs
      rw [hts, List.append_nil]
      refine Run.lift hcat.out fun r hr => ⟨OptW.mono hr fun t ht => ht.congr fun b i j => ?_, hst, fun _ => hc⟩
      rw [Matrix.one_mul, c.JW_of hg hst.param]; rfl
    vjpW := @fun s B X x u U hw hB hx hu =>
      (seq_back hg hnd hw hB hx (f := fun _ => do let vs ← Sequential.vjpWeight q c.mods c.mods.length u []; (Sequential.catOrNone 1 vs : Res _))
        fun s' v hpar hw' he => by
          have := vjpWeight_loop hg hB he [] hu []
          rw [List.append_nil] at this
          rw [hlen]
          refine this.bind fun t s'' ⟨⟨ts, hts, hcat⟩, hs⟩ => ?_
          rw [hts, List.append_nil]
          rw [c.JW_of hg hpar] at hcat
          exact Run.lift hcat.out fun r hr => ⟨hr, hs⟩).toW
    mjpW := @fun s B X x r A Z hw hB hx hr hA =>
      (seq_back hg hnd hw hB hx (f := fun _ => do let vs ← Sequential.mjpWeight q c.mods c.mods.length A []; (Sequential.catOrNone 2 vs : Res _))
        fun s' v hpar hw' he => by
          have := mjpWeight_loop hg hB he [] hr hA []
          rw [List.append_nil] at this
          rw [hlen]
          refine this.bind fun t s'' ⟨⟨ts, hts, hcat⟩, hs⟩ => ?_
          rw [hts, List.append_nil]
          rw [c.JW_of hg hpar] at hcat
          exact Run.lift hcat.out fun r hr => ⟨hr, hs⟩).toW
    jTWd := @fun s B X x A Z fd hw hB hx hA =>
      seq_back hg hnd hw hB hx (f := fun _ => do
          let acc ← Sequential.jTmjpWeight q c.mods.length c.mods fd true false c.mods.length (some A) []
          if acc.length = 0 then Pure.pure PyVal.none
          else do
            let ts ← (acc.mapM PyVal.toTensor : Res _)
            let r ← (Tensor.cat 1 ts : Res _)
            Pure.pure (PyVal.tensor r))
        fun s' v hpar hw' he => by
          have := jTmjpWeight_diag hg hB he [] le_rfl (A := A) (Z := Z) (fd := fd) (by simpa using hA) []
          rw [List.append_nil] at this
          rw [hlen]
          refine this.bind fun t s'' ⟨⟨ts, hts, hcat⟩, hs⟩ => ?_
          subst hs
          rw [c.JW_of hg hpar] at hcat
          exact catWeights (by rw [hts, List.append_nil]) hcat
    jTWdb := @fun s B X x A d hw hB hx hA =>
      seq_back hg hnd hw hB hx (f := fun _ => do
          let acc ← Sequential.jTmjpWeight q c.mods.length c.mods true true true c.mods.length (some A) []
          if acc.length = 0 then Pure.pure PyVal.none
          else do
            let ts ← (acc.mapM PyVal.toTensor : Res _)
            let r ← (Tensor.cat 1 ts : Res _)
            Pure.pure (PyVal.tensor r))
        fun s' v hpar hw' he => by
          have := jTmjpWeight_db (N := l + 1) hg hB he [] hA []
          rw [List.append_nil] at this
          rw [hlen]
          refine this.bind fun t s'' ⟨⟨ts, hts, hcat⟩, hs⟩ => ?_
          subst hs
          rw [c.QW_of hg hpar] at hcat
          exact catWeights (by rw [hts, List.append_nil]) hcat
    jTWf := @fun s B X x A Z fd hw hB hx hA =>
      seq_back hg hnd hw hB hx (f := fun _ => do
          let acc ← Sequential.jTmjpWeight q c.mods.length c.mods fd false false c.mods.length (some A) []
          if acc.length = 0 then Pure.pure PyVal.none
          else Pure.pure (PyVal.list acc))
        fun s' v hpar hw' he => by
          have := jTmjpWeight_full hg hB he [] le_rfl (A := A) (Z := Z) (fd := fd) (by simpa using hA) []
          rw [List.append_nil] at this
          rw [hlen]
          refine this.bind fun acc s'' ⟨⟨vs, hvs, hb⟩, hs⟩ => ?_
          subst hs
          rw [c.JW_of hg hpar] at hb
          have hl := blocks_length hb
          rw [List.append_nil] at hvs
          subst hvs
          have h0 : acc.length = 0 ↔ p = 0 := by rw [hl, c.npar_zero]
          unfold OptV
          by_cases hp : p = 0
          · simp only [h0.2 hp, hp, if_true]; exact Run.pure ⟨rfl, rfl⟩
          · have : ¬ acc.length = 0 := fun h => hp (h0.1 h)
            simp only [this, hp, if_false]; exact Run.pure ⟨⟨acc, rfl, hb⟩, rfl⟩
    jvpI := fun hf => @fun s B X x u U hw hB hx hu =>
      seq_fwd hg hw (x := x) (f := do let r ← Sequential.jvpInput c.mods x u; Pure.pure (some r)) fun L hL =>
        (jvpInput_loop hg hf hnd hw.2 hB hx hL hu).bind fun t s' ⟨ht, hr⟩ => Run.pure ⟨ht, hr⟩
    jvpW := fun hf hfW => @fun s B X x u U hw hB hx hu =>
      seq_fwd hg hw (x := x) (f := do
          let (r, i) ← Sequential.jvpWeight u c.mods x 0 none
          Prog.assert (i = Sequential.nParams c.mods)
          Pure.pure r) fun L hL =>
        (jvpWeight_loop hg hf hfW hnd hw.2 hB hx hL hu).bind fun t s' ⟨ht, hi, hr⟩ => by
          refine Run.bindAssert ?_ (Run.pure ⟨ht, hr⟩)
          simp only [hi, c.nParams hg, decide_true]
    jmpI := fun hf => @fun s B X x r A Z hw hB hx hu =>
      seq_fwd hg hw (x := x) (f := do let r ← Sequential.jmpInput c.mods x A; Pure.pure (some r)) fun L hL =>
        (jmpInput_loop hg hf hnd hw.2 hB hx hL hu).bind fun t s' ⟨ht, hr⟩ => Run.pure ⟨ht, hr⟩
    jmpW := fun hf hfW => @fun s B X x r A Z hw hB hx hu =>
      seq_fwd hg hw (x := x) (f := do
          let (r, i) ← Sequential.jmpWeight A c.mods x 0 none
          Prog.assert (i = Sequential.nParams c.mods)
          Pure.pure r) fun L hL =>
        (jmpWeight_loop hg hf hfW hnd hw.2 hB hx hL hu).bind fun t s' ⟨ht, hi, hr⟩ => by
          refine Run.bindAssert ?_ (Run.pure ⟨ht, hr⟩)
          simp only [hi, c.nParams hg, decide_true]
    jmjI := fun hf => @fun s B X x A Z fd td hw hB hx hA =>
      seq_backS hg hnd hw hB hx (f := fun _ => do
          let r ← Sequential.jmjTpInput q c.mods.length fd td false c.mods 0 (.tensor A)
          (r.toOption : Res _))
        fun s' v hpar hw' he => by
          refine Run.bind (P := fun r s'' => IsTensor (fun t => MetricOut td t B k fun b => c.J s X b * Z b * (c.J s X b)ᵀ) r ∧ Kept c B X s' s'') ?_
            fun r s'' ⟨hr, hk⟩ => ?_
          · rw [← List.append_nil c.mods]
            refine jmjTpInput_loop (N := (c.mods ++ []).length) (td := td) hg hf hB hnd he (by simp [hlen]) hA [] fun t s'' hk ht => ?_
            refine Run.ofEq rfl ⟨?_, hk⟩
            simp only [Nat.succ_ne_zero, if_false, List.append_nil, hlen, if_true] at ht
            rw [c.J_of hg hpar] at ht
            exact ht
          · cases r with
            | none => exact hr.elim
            | list _ => exact hr.elim
            | tensor t => exact Run.pure ⟨hr, hk⟩
    jmjIdb := fun hf => @fun s B X x A d hw hB hx hA =>
      seq_backS hg hnd hw hB hx (f := fun _ => do
          let r ← Sequential.jmjTpInput q c.mods.length true true true c.mods 0 (.tensor A)
          (r.toOption : Res _))
        fun s' v hpar hw' he => by
          refine Run.bind (P := fun r s'' => IsTensor (fun t => IsVec t B k fun b => c.Q s X b *ᵥ d b) r ∧ Kept c B X s' s'') ?_
            fun r s'' ⟨hr, hk⟩ => ?_
          · rw [← List.append_nil c.mods]
            refine jmjTpInput_db (N := (c.mods ++ []).length) hg hf hB hnd he hA [] fun t s'' hk ht => ?_
            refine Run.ofEq rfl ⟨?_, hk⟩
            rw [c.Q_of hg hpar] at ht
            exact ht
          · cases r with
            | none => exact hr.elim
            | list _ => exact hr.elim
            | tensor t => exact Run.pure ⟨hr, hk⟩
    jmjW := fun hf hp => @fun s B X x v Z fd td hw hB hx hA => by
      have key : ∀ s' vs, s'.param = s.param → Env q c B X s' → MChain.args fd vs c B Z →
          Run (Sequential.jmjTpWeight q c.mods.length fd td false vs c.mods 0 0 none) s' fun o s'' =>
            IsSome (fun t => MetricOut td t B k fun b => c.JW s X b * c.S.mask (Z b) * (c.JW s X b)ᵀ) o ∧ Kept c B X s' s'' := by
        intro s' vs hpar he ha
        rw [← List.append_nil c.mods]
        refine jmjTpWeight_loop (N := (c.mods ++ []).length) (td := td) hg hf hB hnd he (by simp [hlen]) ha [] fun t s'' hk ht => ?_
        refine Run.ofEq rfl ⟨?_, hk⟩
        simp only [OptW, Nat.ne_of_gt hp, if_false, List.append_nil, hlen, if_true] at ht
        rw [c.JW_of hg hpar] at ht
        exact ht
      rcases hA with ⟨t, rfl, ht⟩ | ⟨vs, rfl, hvs⟩
      · refine seq_backS hg hnd hw hB hx (f := fun _ => do
          let (vs, i) ← (Sequential.splitBlocks t fd c.mods 0 : Res _)
          Prog.assert (i = Sequential.nParams c.mods)
          Sequential.jmjTpWeight q c.mods.length fd td false vs c.mods 0 0 none) fun s' _ hpar hw' he => ?_
        refine Run.bindLift (split_ok hg ht) fun r ⟨hi, hpc⟩ => ?_
        refine Run.bindAssert ?_ (key s' r.1 hpar he (args_of_pieces hg hpc))
        simp only [hi, c.nParams hg, decide_true]
      · exact seq_backS hg hnd hw hB hx (f := fun _ => Sequential.jmjTpWeight q c.mods.length fd td false vs c.mods 0 0 none)
          fun s' _ hpar hw' he => key s' vs hpar he hvs
    jmjWdb := fun hf hp => @fun s B X x A d hw hB hx hA => by
      refine seq_backS hg hnd hw hB hx (f := fun _ => do
          let (vs, i) ← (Sequential.splitBlocks A true c.mods 0 : Res _)
          Prog.assert (i = Sequential.nParams c.mods)
          Sequential.jmjTpWeight q c.mods.length true true true vs c.mods 0 0 none) fun s' _ hpar hw' he => ?_
      refine Run.bindLift (split_ok hg (MetricArg.diag hA)) fun r ⟨hi, hpc⟩ => ?_
      refine Run.bindAssert (by simp only [hi, c.nParams hg, decide_true]) ?_
      rw [← List.append_nil c.mods]
      refine jmjTpWeight_db (N := (c.mods ++ []).length) hg hf hB hnd he hpc [] fun t s'' hk ht => ?_
      refine Run.ofEq rfl ⟨?_, hk⟩
      simp only [OptW, Nat.ne_of_gt hp, if_false] at ht
      rw [c.QW_of hg hpar] at ht
      exact ht }

end NNJ
