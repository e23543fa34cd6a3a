import Verif.Proofs.Dtype

/-!
# Dtypes: networks
-/

namespace NNJ.Dt

section
variable {d : DType} {e : Env}

theorem catList_is {ts : List DT} (h : ∀ t ∈ ts, t.Is d) : OptIs d (catList ts) := by
  cases ts with
  | nil => exact optIs_none
  | cons t ts =>
      refine optIs_some ?_
      have ht : t.Is d := h t (by simp)
      have hr : ∀ s ∈ ts, s.Is d := fun s hs => h s (by simp [hs])
      clear h
      induction ts generalizing t with
      | nil => exact ht
      | cons s ts ih =>
          exact ih (t.cat s) (ht.cat (hr s (by simp))) fun q hq => hr q (by simp [hq])

theorem pushSome_is {o : Option DT} (ho : OptIs d o) {ts : List DT} (h : ∀ t ∈ ts, t.Is d) :
    ∀ t ∈ pushSome o ts, t.Is d := by
  cases o with
  | none => exact h
  | some s =>
      intro t ht
      rcases List.mem_cons.1 ht with rfl | ht
      · exact ho _ rfl
      · exact h t ht

theorem accum_is {a f : Option DT} (ha : OptIs d a) (hf : OptIs d f) : OptIs d (accum a f) := by
  cases f with
  | none => cases a <;> exact ha
  | some s =>
      cases a with
      | none => exact hf
      | some t => exact optIs_some ((ha t rfl).addInPlace (hf s rfl))

theorem JT.Is.toOpt {r : JT} (h : r.Is d) : Fine (OptIs d) r.toOpt := by
  cases r with
  | none => exact optIs_none
  | one t => exact optIs_some h
  | many ts => exact DErr.noConfusion

theorem JT.is_ofOpt {o : Option DT} (h : OptIs d o) : (JT.ofOpt o).Is d := by
  cases o with
  | none => exact trivial
  | some t => exact h t rfl

theorem JT.Is.push {r : JT} (h : r.Is d) {ts : List DT} (hts : ∀ t ∈ ts, t.Is d) :
    ∀ t ∈ r.push ts, t.Is d := by
  cases r with
  | none => exact hts
  | one t =>
      intro s hs
      rcases List.mem_cons.1 hs with rfl | hs
      · exact h
      · exact hts s hs
  | many l =>
      intro s hs
      rcases List.mem_append.1 hs with hs | hs
      · exact h s hs
      · exact hts s hs

theorem checkFlags_fine (f t db : Bool) : Fine (fun _ => True) (checkFlags f t db) := by
  unfold checkFlags
  split
  · exact trivial
  · exact DErr.noConfusion

theorem leaf_params (l : Leaf) : (DNet.leaf l).params = l.params := by
  cases l <;> simp [DNet.params, Leaf.params]

theorem cons_params {n : DNet} {c : DChain} (h : ∀ i ∈ (DChain.cons n c).params, e.par i = d) :
    (∀ i ∈ n.params, e.par i = d) ∧ ∀ i ∈ c.params, e.par i = d := by
  simp only [DChain.params, List.mem_append] at h
  exact ⟨fun i hi => h i (.inl hi), fun i hi => h i (.inr hi)⟩

theorem seq_params {c : DChain} (h : ∀ i ∈ (DNet.seq c).params, e.par i = d) :
    ∀ i ∈ c.params, e.par i = d := by simpa only [DNet.params] using h

theorem skip_params {c : DChain} (h : ∀ i ∈ (DNet.skip c).params, e.par i = d) :
    ∀ i ∈ c.params, e.par i = d := by simpa only [DNet.params] using h

mutual
theorem DNet.fwd_fine (n : DNet) (hp : ∀ i ∈ n.params, e.par i = d) {x : DT} (hx : x.Is d) :
    Fine (DT.Is d) (n.fwd e x) := by
  match n with
  | .leaf l => rw [DNet.fwd]; exact l.fwd_fine (by rwa [leaf_params] at hp) hx
  | .seq c => rw [DNet.fwd]; exact c.fwd_fine (seq_params hp) hx
  | .skip c =>
      rw [DNet.fwd]
      exact (c.fwd_fine (skip_params hp) hx).bind fun y hy => hx.cat hy
theorem DChain.fwd_fine (c : DChain) (hp : ∀ i ∈ c.params, e.par i = d) {x : DT} (hx : x.Is d) :
    Fine (DT.Is d) (c.fwd e x) := by
  match c with
  | .nil => rw [DChain.fwd]; exact hx
  | .cons n c =>
      rw [DChain.fwd]
      exact (n.fwd_fine (cons_params hp).1 hx).bind fun y hy => c.fwd_fine (cons_params hp).2 hy
end

theorem chain_safe {n : DNet} {c : DChain} (h : (DChain.cons n c).Safe e.dflt d) :
    n.Safe e.dflt d ∧ c.Safe e.dflt d := by simpa only [DChain.Safe] using h

theorem leaf_safe {l : Leaf} (h : (DNet.leaf l).Safe e.dflt d) : l.Safe e.dflt d := by
  simpa only [DNet.Safe] using h
theorem seq_safe {c : DChain} (h : (DNet.seq c).Safe e.dflt d) : c.Safe e.dflt d := by
  simpa only [DNet.Safe] using h
theorem skip_safe {c : DChain} (h : (DNet.skip c).Safe e.dflt d) : c.Safe e.dflt d := by
  simpa only [DNet.Safe] using h

mutual
theorem DNet.vjp_fine (n : DNet) (hp : ∀ i ∈ n.params, e.par i = d) (hs : n.Safe e.dflt d)
    {x v : DT} {val : Option DT} (hx : x.Is d) (hval : OptIs d val) (hv : v.Is d) (wrt : Wrt) :
    Fine (Res1 d wrt) (n.vjp e x val v wrt) := by
  match n with
  | .leaf l =>
      rw [DNet.vjp]
      exact Leaf.vjp_fine (by rwa [leaf_params] at hp) (leaf_safe hs) hx hval hv wrt
  | .seq c => rw [DNet.vjp]; exact c.vjp_fine (seq_params hp) (seq_safe hs) hx hv wrt
  | .skip c =>
      rw [DNet.vjp]
      refine (c.vjp_fine (skip_params hp) (skip_safe hs) hx hv wrt).bind fun r hr => ?_
      cases wrt with
      | input => exact (SomeIs.opt hr).need.bind fun t ht => someIs_some (hv.arith ht)
      | weight => exact hr
      | other => exact optIs_none
theorem DChain.vjp_fine (c : DChain) (hp : ∀ i ∈ c.params, e.par i = d) (hs : c.Safe e.dflt d)
    {x v : DT} (hx : x.Is d) (hv : v.Is d) (wrt : Wrt) :
    Fine (Res1 d wrt) (c.vjp e x v wrt) := by
  cases wrt with
  | input =>
      rw [DChain.vjp]
      exact (c.vjpIn_fine hp hs hx hv).bind fun t ht => someIs_some ht
  | weight =>
      rw [DChain.vjp]
      exact (c.vjpW_fine hp hs true hx hv).bind fun r hr => catList_is hr.1
  | other => rw [DChain.vjp]; exact DErr.noConfusion
theorem DChain.vjpIn_fine (c : DChain) (hp : ∀ i ∈ c.params, e.par i = d)
    (hs : c.Safe e.dflt d) {x v : DT} (hx : x.Is d) (hv : v.Is d) :
    Fine (DT.Is d) (c.vjpIn e x v) := by
  match c with
  | .nil => rw [DChain.vjpIn]; exact hv
  | .cons n c =>
      rw [DChain.vjpIn]
      refine (n.fwd_fine (cons_params hp).1 hx).bind fun y hy => ?_
      refine (c.vjpIn_fine (cons_params hp).2 (chain_safe hs).2 hy hv).bind fun v' hv' => ?_
      exact (n.vjp_fine (cons_params hp).1 (chain_safe hs).1 hx (optIs_some hy) hv' .input).bind
        fun o ho => (SomeIs.opt ho).need
theorem DChain.vjpW_fine (c : DChain) (hp : ∀ i ∈ c.params, e.par i = d)
    (hs : c.Safe e.dflt d) (first : Bool) {x v : DT} (hx : x.Is d) (hv : v.Is d) :
    Fine (fun r => (∀ t ∈ r.1, t.Is d) ∧ r.2.Is d) (c.vjpW e first x v) := by
  match c with
  | .nil => rw [DChain.vjpW]; exact ⟨by simp, hv⟩
  | .cons n c =>
      rw [DChain.vjpW]
      refine (n.fwd_fine (cons_params hp).1 hx).bind fun y hy => ?_
      refine (c.vjpW_fine (cons_params hp).2 (chain_safe hs).2 false hy hv).bind fun r hr => ?_
      have hn := fun wrt => n.vjp_fine (cons_params hp).1 (chain_safe hs).1 hx (optIs_some hy)
        hr.2 wrt
      refine (hn .weight).bind fun o ho => ?_
      split
      · exact ⟨pushSome_is ho hr.1, hr.2⟩
      · refine (hn .input).bind fun q hq => ?_
        exact (SomeIs.opt hq).need.bind fun t ht => ⟨pushSome_is ho hr.1, ht⟩
end

mutual
theorem DNet.mjp_fine (n : DNet) (hp : ∀ i ∈ n.params, e.par i = d) (hs : n.Safe e.dflt d)
    {x v : DT} {val : Option DT} (hx : x.Is d) (hval : OptIs d val) (hv : v.Is d) (wrt : Wrt) :
    Fine (Res1 d wrt) (n.mjp e x val (some v) wrt) := by
  match n with
  | .leaf l =>
      rw [DNet.mjp]
      exact Leaf.mjp_fine (by rwa [leaf_params] at hp) (leaf_safe hs) hx hval hv wrt
  | .seq c => rw [DNet.mjp]; exact c.mjp_fine (seq_params hp) (seq_safe hs) hx (optIs_some hv) wrt
  | .skip c =>
      rw [DNet.mjp]
      refine (c.mjp_fine (skip_params hp) (skip_safe hs) hx (optIs_some hv) wrt).bind
        fun r hr => ?_
      cases wrt with
      | input => exact (SomeIs.opt hr).need.bind fun t ht => someIs_some (hv.arith ht)
      | weight => exact hr
      | other => exact optIs_none
theorem DChain.mjp_fine (c : DChain) (hp : ∀ i ∈ c.params, e.par i = d) (hs : c.Safe e.dflt d)
    {x : DT} {m : Option DT} (hx : x.Is d) (hm : OptIs d m) (wrt : Wrt) :
    Fine (Res1 d wrt) (c.mjp e x m wrt) := by
  have hm' : (m.getD (.const x.ty)).Is d := hm.getD (by rw [hx.1]; exact is_const d)
  cases wrt with
  | input =>
      rw [DChain.mjp]
      exact c.mjpIn_fine hp hs hx (someIs_some hm')
  | weight =>
      rw [DChain.mjp]
      exact (c.mjpW_fine hp hs true hx (someIs_some hm')).bind fun r hr => catList_is hr.1
  | other => rw [DChain.mjp]; exact DErr.noConfusion
theorem DChain.mjpIn_fine (c : DChain) (hp : ∀ i ∈ c.params, e.par i = d)
    (hs : c.Safe e.dflt d) {x : DT} {m : Option DT} (hx : x.Is d) (hm : SomeIs d m) :
    Fine (SomeIs d) (c.mjpIn e x m) := by
  match c with
  | .nil => rw [DChain.mjpIn]; exact hm
  | .cons n c =>
      rw [DChain.mjpIn]
      refine (n.fwd_fine (cons_params hp).1 hx).bind fun y hy => ?_
      refine (c.mjpIn_fine (cons_params hp).2 (chain_safe hs).2 hy hm).bind fun o ho => ?_
      obtain ⟨v', rfl, hv'⟩ := ho
      exact n.mjp_fine (cons_params hp).1 (chain_safe hs).1 hx (optIs_some hy) hv' .input
theorem DChain.mjpW_fine (c : DChain) (hp : ∀ i ∈ c.params, e.par i = d)
    (hs : c.Safe e.dflt d) (first : Bool) {x : DT} {m : Option DT} (hx : x.Is d)
    (hm : SomeIs d m) :
    Fine (fun r => (∀ t ∈ r.1, t.Is d) ∧ SomeIs d r.2) (c.mjpW e first x m) := by
  match c with
  | .nil => rw [DChain.mjpW]; exact ⟨by simp, hm⟩
  | .cons n c =>
      rw [DChain.mjpW]
      refine (n.fwd_fine (cons_params hp).1 hx).bind fun y hy => ?_
      refine (c.mjpW_fine (cons_params hp).2 (chain_safe hs).2 false hy hm).bind fun r hr => ?_
      obtain ⟨ts, o⟩ := r
      obtain ⟨h1, v', rfl, hv'⟩ := hr
      have hn := fun wrt => n.mjp_fine (cons_params hp).1 (chain_safe hs).1 hx (optIs_some hy)
        hv' wrt
      refine (hn .weight).bind fun o ho => ?_
      dsimp only
      split
      · exact ⟨pushSome_is ho h1, someIs_some hv'⟩
      · exact (hn .input).bind fun q hq => ⟨pushSome_is ho h1, hq⟩
end

theorem DNet.mjp_none_fine (n : DNet) (hp : ∀ i ∈ n.params, e.par i = d) (hs : n.Safe e.dflt d)
    {x : DT} {val : Option DT} (hx : x.Is d) (hval : OptIs d val) (wrt : Wrt)
    (hb : e.dflt = d ∨ n.bareConv = false) :
    Fine (Res1 d wrt) (n.mjp e x val none wrt) := by
  match n with
  | .leaf l =>
      rw [DNet.mjp]
      exact Leaf.mjp_none_fine (by rwa [leaf_params] at hp) (leaf_safe hs) hx hval wrt hb
  | .seq c => rw [DNet.mjp]; exact c.mjp_fine (seq_params hp) (seq_safe hs) hx optIs_none wrt
  | .skip c =>
      rw [DNet.mjp]
      refine (c.mjp_fine (skip_params hp) (skip_safe hs) hx optIs_none wrt).bind fun r hr => ?_
      have hc : (DT.const x.ty).Is d := by rw [hx.1]; exact is_const d
      cases wrt with
      | input => exact (SomeIs.opt hr).need.bind fun t ht => someIs_some (hc.cat ht)
      | weight => exact (OptIs.need hr).bind fun t ht => optIs_some (hc.cat ht)
      | other => exact optIs_none

theorem DNet.jacobian_fine (n : DNet) (hp : ∀ i ∈ n.params, e.par i = d)
    (hs : n.Safe e.dflt d) {x : DT} {val : Option DT} (hx : x.Is d) (hval : OptIs d val)
    (wrt : Wrt) (hb : e.dflt = d ∨ n.bareConv = false) :
    Fine (Res1 d wrt) (n.jacobian e x val wrt) := by
  match n with
  | .leaf l =>
      exact Leaf.jacobian_fine (by rwa [leaf_params] at hp) (leaf_safe hs) hx hval wrt hb
  | .seq c => exact DNet.mjp_none_fine (.seq c) hp hs hx hval wrt hb
  | .skip c => exact DNet.mjp_none_fine (.skip c) hp hs hx hval wrt hb

mutual
theorem DNet.jvp_fine (n : DNet) (hp : ∀ i ∈ n.params, e.par i = d) (hs : n.Safe e.dflt d)
    {x v : DT} {val : Option DT} (hx : x.Is d) (hval : OptIs d val) (hv : v.Is d) (wrt : Wrt) :
    Fine (Res1 d wrt) (n.jvp e x val v wrt) := by
  match n with
  | .leaf l =>
      rw [DNet.jvp]
      exact Leaf.jvp_fine (by rwa [leaf_params] at hp) (leaf_safe hs) hx hval hv wrt
  | .seq c => rw [DNet.jvp]; exact c.jvp_fine (seq_params hp) (seq_safe hs) hx hv wrt
  | .skip c =>
      rw [DNet.jvp]
      refine (c.jvp_fine (skip_params hp) (skip_safe hs) hx hv wrt).bind fun r hr => ?_
      have hc : (DT.const x.ty).Is d := by rw [hx.1]; exact is_const d
      cases wrt with
      | input => exact (SomeIs.opt hr).need.bind fun t ht => someIs_some (hv.cat ht)
      | weight => exact (OptIs.need hr).bind fun t ht => optIs_some (hc.cat ht)
      | other => exact optIs_none
theorem DChain.jvp_fine (c : DChain) (hp : ∀ i ∈ c.params, e.par i = d) (hs : c.Safe e.dflt d)
    {x v : DT} (hx : x.Is d) (hv : v.Is d) (wrt : Wrt) :
    Fine (Res1 d wrt) (c.jvp e x v wrt) := by
  cases wrt with
  | input =>
      rw [DChain.jvp]
      exact (c.jvpIn_fine hp hs hx hv).bind fun t ht => someIs_some ht
  | weight => rw [DChain.jvp]; exact c.jvpW_fine hp hs hx hv optIs_none
  | other => rw [DChain.jvp]; exact DErr.noConfusion
theorem DChain.jvpIn_fine (c : DChain) (hp : ∀ i ∈ c.params, e.par i = d)
    (hs : c.Safe e.dflt d) {x v : DT} (hx : x.Is d) (hv : v.Is d) :
    Fine (DT.Is d) (c.jvpIn e x v) := by
  match c with
  | .nil => rw [DChain.jvpIn]; exact hv
  | .cons n c =>
      rw [DChain.jvpIn]
      refine (n.fwd_fine (cons_params hp).1 hx).bind fun y hy => ?_
      refine (n.jvp_fine (cons_params hp).1 (chain_safe hs).1 hx (optIs_some hy) hv .input).bind
        fun o ho => ?_
      refine (SomeIs.opt ho).need.bind fun v' hv' => ?_
      exact c.jvpIn_fine (cons_params hp).2 (chain_safe hs).2 hy hv'
theorem DChain.jvpW_fine (c : DChain) (hp : ∀ i ∈ c.params, e.par i = d)
    (hs : c.Safe e.dflt d) {x v : DT} {a : Option DT} (hx : x.Is d) (hv : v.Is d)
    (ha : OptIs d a) : Fine (OptIs d) (c.jvpW e x v a) := by
  match c with
  | .nil => rw [DChain.jvpW]; exact ha
  | .cons n c =>
      rw [DChain.jvpW]
      refine (n.fwd_fine (cons_params hp).1 hx).bind fun y hy => ?_
      have hn := fun (s : DT) (hs' : s.Is d) wrt =>
        n.jvp_fine (cons_params hp).1 (chain_safe hs).1 hx (optIs_some hy) hs' wrt
      refine Fine.bind (P := OptIs d) ?_ fun a' ha' => ?_
      · cases a with
        | none => exact optIs_none
        | some s => exact (hn s (ha s rfl) .input).mono fun _ => SomeIs.opt
      refine (hn v hv .weight).bind fun f hf => ?_
      exact c.jvpW_fine (cons_params hp).2 (chain_safe hs).2 hy hv (accum_is ha' hf)
end

mutual
theorem DNet.jmp_fine (n : DNet) (hp : ∀ i ∈ n.params, e.par i = d) (hs : n.Safe e.dflt d)
    {x v : DT} {val : Option DT} (hx : x.Is d) (hval : OptIs d val) (hv : v.Is d) (wrt : Wrt) :
    Fine (Res1 d wrt) (n.jmp e x val (some v) wrt) := by
  match n with
  | .leaf l =>
      rw [DNet.jmp]
      exact Leaf.jmp_fine (by rwa [leaf_params] at hp) (leaf_safe hs) hx hval hv wrt
  | .seq c => rw [DNet.jmp]; exact c.jmp_fine (seq_params hp) (seq_safe hs) hx hv wrt
  | .skip c =>
      rw [DNet.jmp]
      refine (c.jmp_fine (skip_params hp) (skip_safe hs) hx hv wrt).bind fun r hr => ?_
      have hc : (DT.const x.ty).Is d := by rw [hx.1]; exact is_const d
      cases wrt with
      | input => exact (SomeIs.opt hr).need.bind fun t ht => someIs_some (hv.cat ht)
      | weight => exact (OptIs.need hr).bind fun t ht => optIs_some (hc.cat ht)
      | other => exact optIs_none
theorem DChain.jmp_fine (c : DChain) (hp : ∀ i ∈ c.params, e.par i = d) (hs : c.Safe e.dflt d)
    {x v : DT} (hx : x.Is d) (hv : v.Is d) (wrt : Wrt) :
    Fine (Res1 d wrt) (c.jmp e x v wrt) := by
  cases wrt with
  | input =>
      rw [DChain.jmp]
      exact c.jmpIn_fine hp hs hx (someIs_some hv)
  | weight => rw [DChain.jmp]; exact c.jmpW_fine hp hs hx hv optIs_none
  | other => rw [DChain.jmp]; exact DErr.noConfusion
theorem DChain.jmpIn_fine (c : DChain) (hp : ∀ i ∈ c.params, e.par i = d)
    (hs : c.Safe e.dflt d) {x : DT} {m : Option DT} (hx : x.Is d) (hm : SomeIs d m) :
    Fine (SomeIs d) (c.jmpIn e x m) := by
  match c with
  | .nil => rw [DChain.jmpIn]; exact hm
  | .cons n c =>
      rw [DChain.jmpIn]
      refine (n.fwd_fine (cons_params hp).1 hx).bind fun y hy => ?_
      obtain ⟨v, rfl, hv⟩ := hm
      refine (n.jmp_fine (cons_params hp).1 (chain_safe hs).1 hx (optIs_some hy) hv .input).bind
        fun o ho => ?_
      exact c.jmpIn_fine (cons_params hp).2 (chain_safe hs).2 hy ho
theorem DChain.jmpW_fine (c : DChain) (hp : ∀ i ∈ c.params, e.par i = d)
    (hs : c.Safe e.dflt d) {x v : DT} {a : Option DT} (hx : x.Is d) (hv : v.Is d)
    (ha : OptIs d a) : Fine (OptIs d) (c.jmpW e x v a) := by
  match c with
  | .nil => rw [DChain.jmpW]; exact ha
  | .cons n c =>
      rw [DChain.jmpW]
      refine (n.fwd_fine (cons_params hp).1 hx).bind fun y hy => ?_
      have hn := fun (s : DT) (hs' : s.Is d) wrt =>
        n.jmp_fine (cons_params hp).1 (chain_safe hs).1 hx (optIs_some hy) hs' wrt
      refine Fine.bind (P := OptIs d) ?_ fun a' ha' => ?_
      · cases a with
        | none => exact optIs_none
        | some s => exact (hn s (ha s rfl) .input).mono fun _ => SomeIs.opt
      refine (hn v hv .weight).bind fun f hf => ?_
      exact c.jmpW_fine (cons_params hp).2 (chain_safe hs).2 hy hv (accum_is ha' hf)
end

theorem DNet.jmp_none_fine (n : DNet) (hp : ∀ i ∈ n.params, e.par i = d) (hs : n.Safe e.dflt d)
    {x : DT} {val : Option DT} (hx : x.Is d) (hval : OptIs d val) (wrt : Wrt)
    (hb : e.dflt = d ∨ n.bareConv = false) :
    Fine (Res1 d wrt) (n.jmp e x val none wrt) := by
  match n with
  | .leaf l =>
      rw [DNet.jmp]
      exact Leaf.jmp_none_fine (by rwa [leaf_params] at hp) (leaf_safe hs) hx hval wrt hb
  | .seq c => rw [DNet.jmp]; exact c.mjp_fine (seq_params hp) (seq_safe hs) hx optIs_none wrt
  | .skip c => rw [DNet.jmp]; exact DNet.mjp_none_fine (.skip c) hp hs hx hval wrt hb

mutual
theorem DNet.jTmjp_fine (n : DNet) (hp : ∀ i ∈ n.params, e.par i = d) (hs : n.Safe e.dflt d)
    {x : DT} {val m : Option DT} (hx : x.Is d) (hval : OptIs d val) (hm : OptIs d m) (wrt : Wrt)
    (f t db : Bool) : Fine (JT.Is d) (n.jTmjp e x val m wrt f t db) := by
  match n with
  | .leaf l =>
      rw [DNet.jTmjp]
      exact (Leaf.jTmjp_fine (by rwa [leaf_params] at hp) (leaf_safe hs) hx hval hm wrt f t).bind
        fun o ho => JT.is_ofOpt (Res1.opt ho)
  | .seq c => rw [DNet.jTmjp]; exact c.jTmjp_fine (seq_params hp) (seq_safe hs) hx hm wrt f t db
  | .skip c =>
      rw [DNet.jTmjp.eq_def]
      dsimp only
      refine (checkFlags_fine f t db).bind fun _ _ => ?_
      refine Fine.bind (P := DT.Is d) ?_ fun y hy => ?_
      · cases val with
        | none => exact DNet.fwd_fine (.skip c) hp hx
        | some v => exact hval v rfl
      have hm' : (m.getD (.const y.ty)).Is d := hm.getD (by rw [hy.1]; exact is_const d)
      generalize (f || m.isNone) = f'
      refine (c.jTmjp_fine (skip_params hp) (skip_safe hs) hx (optIs_some hm') wrt f' t
        db).bind fun r hr => ?_
      cases wrt with
      | input =>
          cases f' with
          | true =>
              refine hr.toOpt.bind fun o ho => ?_
              exact ho.need.bind fun q hq => hq.arith hm'
          | false =>
              have hj := c.mjp_fine (skip_params hp) (skip_safe hs) hx (optIs_some hm') .input
              refine hj.bind fun o ho => ?_
              refine (SomeIs.opt ho).need.bind fun mj hmj => ?_
              refine hj.bind fun o ho => ?_
              refine (SomeIs.opt ho).need.bind fun jm hjm => ?_
              refine hr.toOpt.bind fun o ho => ?_
              exact ho.need.bind fun q hq => ((hq.arith hmj).arith hjm).arith hm'
      | weight => exact hr
      | other => exact trivial
theorem DChain.jTmjp_fine (c : DChain) (hp : ∀ i ∈ c.params, e.par i = d)
    (hs : c.Safe e.dflt d) {x : DT} {m : Option DT} (hx : x.Is d) (hm : OptIs d m) (wrt : Wrt)
    (f t db : Bool) : Fine (JT.Is d) (c.jTmjp e x m wrt f t db) := by
  rw [DChain.jTmjp]
  refine (checkFlags_fine f t db).bind fun _ _ => ?_
  have hm' : (m.getD (.const x.ty)).Is d := hm.getD (by rw [hx.1]; exact is_const d)
  dsimp only
  generalize (f || m.isNone) = f'
  cases wrt with
  | input =>
      exact (c.jTIn_fine hp hs true hx (optIs_some hm') f' t db).bind fun o ho => JT.is_ofOpt ho
  | weight =>
      refine (c.jTW_fine hp hs true hx (optIs_some hm') f' t db).bind fun r hr => ?_
      split
      · exact trivial
      · split
        · exact JT.is_ofOpt (catList_is hr.1)
        · exact hr.1
  | other =>
      exact (c.jTIn_fine hp hs true hx (optIs_some hm') f' t db).bind fun _ _ => trivial
theorem DChain.jTIn_fine (c : DChain) (hp : ∀ i ∈ c.params, e.par i = d)
    (hs : c.Safe e.dflt d) (first : Bool) {x : DT} {m : Option DT} (hx : x.Is d)
    (hm : OptIs d m) (f t db : Bool) : Fine (OptIs d) (c.jTIn e first x m f t db) := by
  match c with
  | .nil => rw [DChain.jTIn]; exact hm
  | .cons n c =>
      rw [DChain.jTIn]
      refine (n.fwd_fine (cons_params hp).1 hx).bind fun y hy => ?_
      refine (c.jTIn_fine (cons_params hp).2 (chain_safe hs).2 false hy hm f t db).bind
        fun o ho => ?_
      exact (n.jTmjp_fine (cons_params hp).1 (chain_safe hs).1 hx (optIs_some hy) ho .input _ _
        db).bind fun r hr => hr.toOpt
theorem DChain.jTW_fine (c : DChain) (hp : ∀ i ∈ c.params, e.par i = d)
    (hs : c.Safe e.dflt d) (first : Bool) {x : DT} {m : Option DT} (hx : x.Is d)
    (hm : OptIs d m) (f t db : Bool) :
    Fine (fun r => (∀ t ∈ r.1, t.Is d) ∧ OptIs d r.2) (c.jTW e first x m f t db) := by
  match c with
  | .nil => rw [DChain.jTW]; exact ⟨by simp, hm⟩
  | .cons n c =>
      rw [DChain.jTW]
      refine (n.fwd_fine (cons_params hp).1 hx).bind fun y hy => ?_
      refine (c.jTW_fine (cons_params hp).2 (chain_safe hs).2 false hy hm f t db).bind
        fun r hr => ?_
      refine (n.jTmjp_fine (cons_params hp).1 (chain_safe hs).1 hx (optIs_some hy) hr.2 .weight
        _ _ db).bind fun mk hmk => ?_
      dsimp only
      split
      · exact ⟨hmk.push hr.1, hr.2⟩
      · refine (n.jTmjp_fine (cons_params hp).1 (chain_safe hs).1 hx (optIs_some hy) hr.2 .input
          _ _ db).bind fun q hq => ?_
        exact hq.toOpt.bind fun o ho => ⟨hmk.push hr.1, ho⟩
end

mutual
theorem DNet.jmjTp_fine (n : DNet) (hp : ∀ i ∈ n.params, e.par i = d) (hs : n.Safe e.dflt d)
    {x : DT} {val m : Option DT} (hx : x.Is d) (hval : OptIs d val) (hm : OptIs d m) (wrt : Wrt)
    (f t db : Bool) : Fine (OptIs d) (n.jmjTp e x val m wrt f t db) := by
  match n with
  | .leaf l =>
      rw [DNet.jmjTp]
      exact (Leaf.jmjTp_fine (by rwa [leaf_params] at hp) (leaf_safe hs) hx hval hm wrt f t).mono
        fun _ => Res1.opt
  | .seq c => rw [DNet.jmjTp]; exact c.jmjTp_fine (seq_params hp) (seq_safe hs) hx hm wrt f t db
  | .skip c =>
      rw [DNet.jmjTp]
      refine (checkFlags_fine f t db).bind fun _ _ => ?_
      refine (DNet.fwd_fine (.skip c) hp hx).bind fun _ _ => ?_
      refine (c.jmjTp_fine (skip_params hp) (skip_safe hs) hx hm wrt f t db).bind fun r hr => ?_
      have hc : (DT.const x.ty).Is d := by rw [hx.1]; exact is_const d
      cases wrt with
      | input =>
          cases t with
          | true =>
              refine hm.need.bind fun m' hm' => ?_
              exact hr.need.bind fun q hq => optIs_some (hm'.cat hq)
          | false =>
              refine hm.need.bind fun m' hm' => ?_
              refine (c.jmp_fine (skip_params hp) (skip_safe hs) hx hm' .input).bind
                fun o ho => ?_
              refine (SomeIs.opt ho).need.bind fun jm hjm => ?_
              exact hr.need.bind fun q hq => optIs_some ((hm'.cat hjm).cat (hjm.cat hq))
      | weight => exact hr.need.bind fun q hq => optIs_some (hc.cat hq)
      | other => exact optIs_none
theorem DChain.jmjTp_fine (c : DChain) (hp : ∀ i ∈ c.params, e.par i = d)
    (hs : c.Safe e.dflt d) {x : DT} {m : Option DT} (hx : x.Is d) (hm : OptIs d m) (wrt : Wrt)
    (f t db : Bool) : Fine (OptIs d) (c.jmjTp e x m wrt f t db) := by
  rw [DChain.jmjTp]
  refine (checkFlags_fine f t db).bind fun _ _ => ?_
  have hm' : (m.getD (.const x.ty)).Is d := hm.getD (by rw [hx.1]; exact is_const d)
  dsimp only
  cases wrt with
  | input => exact c.jmjTpIn_fine hp hs hx (optIs_some hm') _ t db
  | weight => exact c.jmjTpW_fine hp hs hx hm' optIs_none _ t db
  | other => exact (c.fwd_fine hp hx).bind fun _ _ => optIs_none
theorem DChain.jmjTpIn_fine (c : DChain) (hp : ∀ i ∈ c.params, e.par i = d)
    (hs : c.Safe e.dflt d) {x : DT} {m : Option DT} (hx : x.Is d) (hm : OptIs d m)
    (f t db : Bool) : Fine (OptIs d) (c.jmjTpIn e x m f t db) := by
  match c with
  | .nil => rw [DChain.jmjTpIn]; exact hm
  | .cons n c =>
      rw [DChain.jmjTpIn]
      refine (n.fwd_fine (cons_params hp).1 hx).bind fun y hy => ?_
      refine (n.jmjTp_fine (cons_params hp).1 (chain_safe hs).1 hx (optIs_some hy) hm .input _ _
        db).bind fun o ho => ?_
      exact c.jmjTpIn_fine (cons_params hp).2 (chain_safe hs).2 hy ho db t db
theorem DChain.jmjTpW_fine (c : DChain) (hp : ∀ i ∈ c.params, e.par i = d)
    (hs : c.Safe e.dflt d) {x m : DT} {a : Option DT} (hx : x.Is d) (hm : m.Is d)
    (ha : OptIs d a) (f t db : Bool) : Fine (OptIs d) (c.jmjTpW e x m a f t db) := by
  match c with
  | .nil => rw [DChain.jmjTpW]; exact ha
  | .cons n c =>
      rw [DChain.jmjTpW]
      refine (n.fwd_fine (cons_params hp).1 hx).bind fun y hy => ?_
      have hn := fun (s : DT) (hs' : s.Is d) wrt f t =>
        n.jmjTp_fine (cons_params hp).1 (chain_safe hs).1 hx (optIs_some hy) (optIs_some hs')
          wrt f t db
      refine Fine.bind (P := OptIs d) ?_ fun a' ha' => ?_
      · cases a with
        | none => exact optIs_none
        | some s => exact hn s (ha s rfl) .input _ _
      split
      · refine (hn m hm .weight _ _).bind fun fl hfl => ?_
        exact c.jmjTpW_fine (cons_params hp).2 (chain_safe hs).2 hy hm (accum_is ha' hfl) f t db
      · exact c.jmjTpW_fine (cons_params hp).2 (chain_safe hs).2 hy hm ha' f t db
end

end

end NNJ.Dt
