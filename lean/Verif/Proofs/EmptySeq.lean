import Verif.Proofs.Empty

/-! Batches without samples: Sequential and SkipConnection. -/

namespace NNJ
open Tensor

/-- each module is fed with the output of the previous one -/
def Linked : List Nat → List EM → List Nat → Prop
  | s, [], s' => s = s'
  | s, e :: es, s' => e.s = s ∧ Linked e.s' es s'

theorem Linked.snoc {e : EM} : ∀ {L : List EM} {s s' : List Nat}, Linked s L s' → e.s = s' → Linked s (L ++ [e]) e.s'
  | [], s, s', h, he => by simp only [Linked] at h; exact ⟨he.trans h.symm, rfl⟩
  | _ :: _, _, _, h, he => ⟨h.1, h.2.snoc he⟩

section
variable {L : List EM} {s s' : List Nat} {st st' : Store ℝ} {x y : Tensor ℝ}

/-- the state fits all modules of the list -/
def ShAll (L : List EM) (st : Store ℝ) : Prop := ∀ e ∈ L, e.Sh st
/-- every container below recorded only feature maps without samples -/
def BareAll (L : List EM) (st : Store ℝ) : Prop := ∀ e ∈ L, ∀ i ∈ e.C, Bare i st

theorem BareAll.keep (h : BareAll L st) (k : KeepBare st st') : BareAll L st' := fun e he i hi => k i (h e he i hi)

theorem ShAll.keeps (hL : ∀ e ∈ L, Empt e) (h : ShAll L st) (k : Keeps st st') : ShAll L st' := fun e he => (hL e he).sh_of k (h e he)

theorem empt_run (hL : ∀ e ∈ L, Empt e) (hl : Linked s L s') (hs : ShAll L st) (ho : HooksOk st) (hx : x.shape = 0 :: s)
    (hr : Sequential.run (L.map EM.m) x st = (.ok y, st')) : (∀ e ∈ L, ¬ e.F) ∧ y.shape = 0 :: s' ∧ KeepBare st st' ∧ BareAll L st' := by
  induction L generalizing s st x with
  | nil =>
    simp only [Linked] at hl
    simp only [List.map_nil, Sequential.run] at hr
    cases hr
    subst hl
    exact ⟨by simp, hx, .refl, by intro e he; simp at he⟩
  | cons e L ih =>
    simp only [List.map_cons, Sequential.run] at hr
    obtain ⟨v, s1, h1, hr⟩ := bind_inv hr
    have he := hL e (by simp)
    obtain ⟨a1, a2, a3, a4, a5⟩ := he.call (hs e (by simp)) ho (by rw [hl.1]; exact hx) h1
    obtain ⟨b1, b2, b3, b4⟩ := ih (fun e he => hL e (by simp [he])) hl.2 (fun e' he' => (hL e' (by simp [he'])).sh_of a5 (hs e' (by simp [he'])))
      (ho.keeps a5) a2 hr
    refine ⟨fun e' he' => ?_, b2, a3.trans b3, fun e' he' i hi => ?_⟩
    · rcases List.mem_cons.1 he' with rfl | he'
      · exact a1
      · exact b1 e' he'
    · rcases List.mem_cons.1 he' with rfl | he'
      · exact b3 i (a4 i hi)
      · exact b4 e' he' i hi

theorem empt_runOk (hL : ∀ e ∈ L, Empt e) (hl : Linked s L s') (hF : ∀ e ∈ L, ¬ e.F) (hs : ShAll L st) (ho : HooksOk st) (hx : x.shape = 0 :: s) :
    ∃ y st', Sequential.run (L.map EM.m) x st = (.ok y, st') := by
  induction L generalizing s st x with
  | nil => exact ⟨x, st, rfl⟩
  | cons e L ih =>
    have he := hL e (by simp)
    obtain ⟨v, s1, h1⟩ := he.callOk (hF e (by simp)) (hs e (by simp)) ho (by rw [hl.1]; exact hx)
    obtain ⟨a1, a2, a3, a4, a5⟩ := he.call (hs e (by simp)) ho (by rw [hl.1]; exact hx) h1
    obtain ⟨y, s2, h2⟩ := ih (fun e he => hL e (by simp [he])) hl.2 (fun e he => hF e (by simp [he]))
      (fun e' he' => (hL e' (by simp [he'])).sh_of a5 (hs e' (by simp [he']))) (ho.keeps a5) a2
    refine ⟨y, s2, ?_⟩
    simp only [List.map_cons, Sequential.run]
    rw [Prog.bind_run, h1]
    exact h2

/-- the state at the start of `forward`, nnj/sequential.py:31-32 -/
def begun (id : Nat) (x : Tensor ℝ) (st : Store ℝ) : Store ℝ := { st with fmaps := fun j => if j = id then some [x] else st.fmaps j }

theorem begun_keeps {id : Nat} : Keeps st (begun id x st) :=
  ⟨fun _ => rfl, rfl, fun j hj => by by_cases e : j = id <;> simp [begun, e]; exact hj⟩

theorem begun_bare {id : Nat} (hx : L0 x) : KeepBare st (begun id x st) ∧ Bare id (begun id x st) := by
  have : Bare id (begun id x st) := by
    intro l hl t ht
    simp only [begun, if_true, Option.some.injEq] at hl
    subst hl
    rw [List.mem_singleton.1 ht]; exact hx
  refine ⟨fun i hi => ?_, this⟩
  by_cases e : i = id
  · rw [e]; exact this
  · intro l hl
    simp only [begun, if_neg e] at hl
    exact hi l hl

theorem empt_seqForward {id : Nat} (hL : ∀ e ∈ L, Empt e) (hl : Linked s L s') (hs : ShAll L st) (ho : HooksOk st) (hx : x.shape = 0 :: s)
    (hr : Sequential.forward id true (L.map EM.m) x st = (.ok y, st')) :
    (∀ e ∈ L, ¬ e.F) ∧ y.shape = 0 :: s' ∧ KeepBare st st' ∧ BareAll L st' ∧ Bare id st' := by
  have hb := begun_bare (st := st) (id := id) ⟨_, hx⟩
  obtain ⟨a1, a2, a3, a4⟩ := empt_run hL hl (hs.keeps hL (begun_keeps (x := x) (id := id))) (ho.keeps begun_keeps) hx hr
  exact ⟨a1, a2, hb.1.trans a3, a4, a3 id hb.2⟩

theorem empt_seqForwardOk {id : Nat} (hL : ∀ e ∈ L, Empt e) (hl : Linked s L s') (hF : ∀ e ∈ L, ¬ e.F) (hs : ShAll L st) (ho : HooksOk st) (hx : x.shape = 0 :: s) :
    ∃ y st', Sequential.forward id true (L.map EM.m) x st = (.ok y, st') :=
  empt_runOk (st := begun id x st) hL hl hF (hs.keeps hL begun_keeps) (ho.keeps begun_keeps) hx

/-! forward mode -/

theorem vok_some {e : EM} {v : Tensor ℝ} (hv : L0 v) (hb : ∀ i ∈ e.C, Bare i st) : e.VOk (some v) st := by
  intro v' h; cases h; exact ⟨hv, hb⟩

theorem empt_jvpInput (hL : ∀ e ∈ L, Empt e) (hl : Linked s L s') (hs : ShAll L st) (ho : HooksOk st) (hx : x.shape = 0 :: s) {u r : Tensor ℝ}
    (hr : Sequential.jvpInput (L.map EM.m) x u st = (.ok r, st')) : (∀ e ∈ L, ¬ e.F ∧ ¬ e.M) ∧ KeepBare st st' := by
  induction L generalizing s st x u with
  | nil => cases hr; exact ⟨by simp, .refl⟩
  | cons e L ih =>
    simp only [List.map_cons, Sequential.jvpInput] at hr
    obtain ⟨v, s1, h1, hr⟩ := bind_inv hr
    obtain ⟨o, s2, h2, hr⟩ := bind_inv hr
    obtain ⟨t, s3, h3, hr⟩ := bind_inv hr
    have he := hL e (by simp)
    have hx' : x.shape = 0 :: e.s := by rw [hl.1]; exact hx
    obtain ⟨a1, a2, a3, a4, a5⟩ := he.call (hs e (by simp)) ho hx' h1
    obtain ⟨b1, b2⟩ := he.jvp (he.sh_of a5 (hs e (by simp))) (ho.keeps a5) hx' (vok_some ⟨_, a2⟩ a4) _ _ h2
    have hk2 := he.tame.jvp x (some v) u .input s1
    rw [h2] at hk2
    have e3 : s2 = s3 := by
      cases o with
      | none => cases h3
      | some o => cases h3; rfl
    subst e3
    have hk := a5.trans hk2
    obtain ⟨c1, c2⟩ := ih (fun e he => hL e (by simp [he])) hl.2 (fun e' he' => (hL e' (by simp [he'])).sh_of hk (hs e' (by simp [he'])))
      (ho.keeps hk) a2 hr
    refine ⟨fun e' he' => ?_, a3.trans (b2.trans c2)⟩
    rcases List.mem_cons.1 he' with rfl | he'
    · exact ⟨a1, fun h => b1 (he.mn h)⟩
    · exact c1 e' he'

theorem empt_jmpInput (hL : ∀ e ∈ L, Empt e) (hl : Linked s L s') (hs : ShAll L st) (ho : HooksOk st) (hx : x.shape = 0 :: s) {u r : Tensor ℝ}
    (hr : Sequential.jmpInput (L.map EM.m) x u st = (.ok r, st')) : (∀ e ∈ L, ¬ e.F ∧ ¬ e.M) ∧ KeepBare st st' := by
  induction L generalizing s st x u with
  | nil => cases hr; exact ⟨by simp, .refl⟩
  | cons e L ih =>
    simp only [List.map_cons, Sequential.jmpInput] at hr
    obtain ⟨v, s1, h1, hr⟩ := bind_inv hr
    obtain ⟨o, s2, h2, hr⟩ := bind_inv hr
    obtain ⟨t, s3, h3, hr⟩ := bind_inv hr
    have he := hL e (by simp)
    have hx' : x.shape = 0 :: e.s := by rw [hl.1]; exact hx
    obtain ⟨a1, a2, a3, a4, a5⟩ := he.call (hs e (by simp)) ho hx' h1
    obtain ⟨b1, b2⟩ := he.jmp (he.sh_of a5 (hs e (by simp))) (ho.keeps a5) hx' (vok_some ⟨_, a2⟩ a4) _ _ h2
    have hk2 := he.tame.jmp x (some v) (some u) .input s1
    rw [h2] at hk2
    have e3 : s2 = s3 := by
      cases o with
      | none => cases h3
      | some o => cases h3; rfl
    subst e3
    have hk := a5.trans hk2
    obtain ⟨c1, c2⟩ := ih (fun e he => hL e (by simp [he])) hl.2 (fun e' he' => (hL e' (by simp [he'])).sh_of hk (hs e' (by simp [he'])))
      (ho.keeps hk) a2 hr
    refine ⟨fun e' he' => ?_, a3.trans (b2.trans c2)⟩
    rcases List.mem_cons.1 he' with rfl | he'
    · exact ⟨a1, fun h => b1 (he.mn h)⟩
    · exact c1 e' he'

theorem lift_state {β : Type} {p : Res β} {r : β} (h : (liftM p : Prog ℝ β) st = (.ok r, st')) : st = st' := congrArg Prod.snd h

theorem empt_jmpWeight (hL : ∀ e ∈ L, Empt e) (hl : Linked s L s') (hs : ShAll L st) (ho : HooksOk st) (hx : x.shape = 0 :: s) {u : Tensor ℝ} {p : Nat}
    {acc : Option (Tensor ℝ)} {r : Option (Tensor ℝ) × Nat}
    (hr : Sequential.jmpWeight u (L.map EM.m) x p acc st = (.ok r, st')) : (∀ e ∈ L, ¬ e.W) ∧ KeepBare st st' := by
  induction L generalizing s st x p acc with
  | nil => cases hr; exact ⟨by simp, .refl⟩
  | cons e L ih =>
    simp only [List.map_cons, Sequential.jmpWeight] at hr
    obtain ⟨v, s1, h1, hr⟩ := bind_inv hr
    obtain ⟨o, s2, h2, hr⟩ := bind_inv hr
    obtain ⟨t, s3, h3, hr⟩ := bind_inv hr
    have e3 := lift_state h3
    subst e3
    obtain ⟨o', s4, h4, hr⟩ := bind_inv hr
    obtain ⟨t', s5, h5, hr⟩ := bind_inv hr
    have e5 := lift_state h5
    subst e5
    have he := hL e (by simp)
    have hx' : x.shape = 0 :: e.s := by rw [hl.1]; exact hx
    obtain ⟨a1, a2, a3, a4, a5⟩ := he.call (hs e (by simp)) ho hx' h1
    have h2' : KeepBare s1 s2 ∧ Keeps s1 s2 := by
      cases acc with
      | none => cases h2; exact ⟨.refl, .refl⟩
      | some a =>
        have hk2 := he.tame.jmp x (some v) (some a) .input s1
        rw [show e.m.jmp x (some v) (some a) .input s1 = _ from h2] at hk2
        exact ⟨(he.jmp (he.sh_of a5 (hs e (by simp))) (ho.keeps a5) hx' (vok_some ⟨_, a2⟩ a4) _ _ h2).2, hk2⟩
    have hk' := a5.trans h2'.2
    obtain ⟨b1, b2⟩ := he.jmpW (he.sh_of hk' (hs e (by simp))) (ho.keeps hk') hx' (vok_some ⟨_, a2⟩ fun i hi => h2'.1 i (a4 i hi)) _ _ h4
    have hk4 := he.tame.jmp x (some v) (some t) .weight s2
    rw [h4] at hk4
    have hk := hk'.trans hk4
    obtain ⟨c1, c2⟩ := ih (fun e he => hL e (by simp [he])) hl.2 (fun e' he' => (hL e' (by simp [he'])).sh_of hk (hs e' (by simp [he'])))
      (ho.keeps hk) a2 hr
    refine ⟨fun e' he' => ?_, a3.trans (h2'.1.trans (b2.trans c2))⟩
    rcases List.mem_cons.1 he' with rfl | he'
    · exact b1
    · exact c1 e' he'

/-! reverse mode -/

theorem child_em {k : Nat} {m : Mod ℝ} (h : Sequential.child (L.map EM.m) k st = (.ok m, st')) : st = st' ∧ ∃ e ∈ L, L[k]? = some e ∧ m = e.m := by
  simp only [Sequential.child, List.getElem?_map] at h
  cases hk : L[k]? with
  | none => rw [hk] at h; cases h
  | some e =>
    rw [hk] at h
    cases h
    exact ⟨rfl, e, List.mem_of_getElem? hk, rfl, rfl⟩

theorem fmap_L0 {id k : Nat} {t : Tensor ℝ} (hb : Bare id st) (h : Sequential.fmap id k st = (.ok t, st')) : st = st' ∧ L0 t := by
  simp only [Sequential.fmap] at h
  cases hf : st.fmaps id with
  | none => rw [hf] at h; cases h
  | some l =>
    rw [hf] at h
    dsimp only at h
    cases hk : l[k]? with
    | none => rw [hk] at h; cases h
    | some t' =>
      rw [hk] at h
      cases h
      exact ⟨rfl, hb l hf t (List.mem_of_getElem? hk)⟩

theorem need_state {o : Option (Tensor ℝ)} {t : Tensor ℝ} (h : Prog.need o st = (.ok t, st')) : st = st' := by
  cases o with
  | none => cases h
  | some o => cases h; rfl

/-- the modules below position `k` -/
def Below (L : List EM) (k : Nat) (P : EM → Prop) : Prop := ∀ j e, j < k → L[j]? = some e → P e

theorem Below.succ {k : Nat} {P : EM → Prop} (h : Below L k P) {e : EM} (he : L[k]? = some e) (hp : P e) : Below L (k + 1) P := by
  intro j e' hj hj'
  rcases Nat.lt_succ_iff_lt_or_eq.1 hj with h' | rfl
  · exact h j e' h' hj'
  · rw [he] at hj'; cases hj'; exact hp

theorem Below.all {P : EM → Prop} (h : Below L L.length P) : ∀ e ∈ L, P e := by
  intro e he
  obtain ⟨j, hj, rfl⟩ := List.getElem_of_mem he
  exact h j _ hj (by simp [hj])

theorem empt_vjpInput {id : Nat} (hL : ∀ e ∈ L, Empt e) (hb : Bare id st) (hB : BareAll L st) {u r : Tensor ℝ} {k : Nat}
    (hr : Sequential.vjpInput id (L.map EM.m) k u st = (.ok r, st')) : Below L k (fun e => ¬ e.M) ∧ KeepBare st st' := by
  induction k generalizing st u with
  | zero => cases hr; exact ⟨fun j e hj => by omega, .refl⟩
  | succ k ih =>
    simp only [Sequential.vjpInput] at hr
    obtain ⟨m, s1, h1, hr⟩ := bind_inv hr
    obtain ⟨rfl, e, he, hk, rfl⟩ := child_em h1
    obtain ⟨xk, s2, h2, hr⟩ := bind_inv hr
    obtain ⟨rfl, hx⟩ := fmap_L0 hb h2
    obtain ⟨vk, s3, h3, hr⟩ := bind_inv hr
    obtain ⟨rfl, hv⟩ := fmap_L0 hb h3
    obtain ⟨o, s4, h4, hr⟩ := bind_inv hr
    obtain ⟨a1, a2⟩ := (hL e he).vjp hx (vok_some hv (hB e he)) _ _ h4
    obtain ⟨t, s5, h5, hr⟩ := bind_inv hr
    have e5 := need_state h5
    subst e5
    obtain ⟨b1, b2⟩ := ih (a2 id hb) (hB.keep a2) hr
    exact ⟨b1.succ hk a1, a2.trans b2⟩

theorem empt_mjpInput {id : Nat} (hL : ∀ e ∈ L, Empt e) (hb : Bare id st) (hB : BareAll L st) {u r : Tensor ℝ} {k : Nat}
    (hr : Sequential.mjpInput id (L.map EM.m) k u st = (.ok r, st')) : Below L k (fun e => ¬ e.M) ∧ KeepBare st st' := by
  induction k generalizing st u with
  | zero => cases hr; exact ⟨fun j e hj => by omega, .refl⟩
  | succ k ih =>
    simp only [Sequential.mjpInput] at hr
    obtain ⟨m, s1, h1, hr⟩ := bind_inv hr
    obtain ⟨rfl, e, he, hk, rfl⟩ := child_em h1
    obtain ⟨xk, s2, h2, hr⟩ := bind_inv hr
    obtain ⟨rfl, hx⟩ := fmap_L0 hb h2
    obtain ⟨vk, s3, h3, hr⟩ := bind_inv hr
    obtain ⟨rfl, hv⟩ := fmap_L0 hb h3
    obtain ⟨o, s4, h4, hr⟩ := bind_inv hr
    obtain ⟨a1, a2⟩ := (hL e he).mjp hx (vok_some hv (hB e he)) _ _ h4
    obtain ⟨t, s5, h5, hr⟩ := bind_inv hr
    have e5 := need_state h5
    subst e5
    obtain ⟨b1, b2⟩ := ih (a2 id hb) (hB.keep a2) hr
    exact ⟨b1.succ hk a1, a2.trans b2⟩

theorem empt_jTmjpInput {id n : Nat} {a b c : Bool} (hL : ∀ e ∈ L, Empt e) (hb : Bare id st) (hB : BareAll L st) {u r : Option (Tensor ℝ)} {k : Nat}
    (hr : Sequential.jTmjpInput id n (L.map EM.m) a b c k u st = (.ok r, st')) : Below L k (fun e => ¬ e.M) ∧ KeepBare st st' := by
  induction k generalizing st u with
  | zero => cases hr; exact ⟨fun j e hj => by omega, .refl⟩
  | succ k ih =>
    simp only [Sequential.jTmjpInput] at hr
    obtain ⟨m, s1, h1, hr⟩ := bind_inv hr
    obtain ⟨rfl, e, he, hk, rfl⟩ := child_em h1
    obtain ⟨xk, s2, h2, hr⟩ := bind_inv hr
    obtain ⟨rfl, hx⟩ := fmap_L0 hb h2
    obtain ⟨vk, s3, h3, hr⟩ := bind_inv hr
    obtain ⟨rfl, hv⟩ := fmap_L0 hb h3
    obtain ⟨o, s4, h4, hr⟩ := bind_inv hr
    obtain ⟨a1, a2⟩ := (hL e he).jTmjp hx (vok_some hv (hB e he)) _ _ h4
    obtain ⟨t, s5, h5, hr⟩ := bind_inv hr
    have e5 := lift_state h5
    subst e5
    obtain ⟨b1, b2⟩ := ih (a2 id hb) (hB.keep a2) hr
    exact ⟨b1.succ hk a1, a2.trans b2⟩

theorem empt_jmjTpInput {id n : Nat} {a b c : Bool} (hL : ∀ e ∈ L, Empt e) (hb : Bare id st) (hB : BareAll L st) {u r : PyVal ℝ} {k : Nat}
    (hr : Sequential.jmjTpInput id n a b c (L.map EM.m) k u st = (.ok r, st')) : (∀ e ∈ L, ¬ e.M) ∧ KeepBare st st' := by
  induction L generalizing st u k with
  | nil => cases hr; exact ⟨by simp, .refl⟩
  | cons e L ih =>
    simp only [List.map_cons, Sequential.jmjTpInput] at hr
    obtain ⟨xk, s2, h2, hr⟩ := bind_inv hr
    obtain ⟨rfl, hx⟩ := fmap_L0 hb h2
    obtain ⟨vk, s3, h3, hr⟩ := bind_inv hr
    obtain ⟨rfl, hv⟩ := fmap_L0 hb h3
    obtain ⟨o, s4, h4, hr⟩ := bind_inv hr
    obtain ⟨a1, a2⟩ := (hL e (by simp)).jmjTp hx (vok_some hv (hB e (by simp))) _ _ h4
    obtain ⟨b1, b2⟩ := ih (fun e he => hL e (by simp [he])) (a2 id hb) (fun e he => (hB.keep a2) e (by simp [he])) hr
    refine ⟨fun e' he' => ?_, a2.trans b2⟩
    rcases List.mem_cons.1 he' with rfl | he'
    · exact a1
    · exact b1 e' he'

theorem empt_vjpWeight {id : Nat} (hL : ∀ e ∈ L, Empt e) (hb : Bare id st) (hB : BareAll L st) {u : Tensor ℝ} {k : Nat} {vs r : List (Tensor ℝ)}
    (hr : Sequential.vjpWeight id (L.map EM.m) k u vs st = (.ok r, st')) : Below L k (fun e => ¬ e.W) ∧ KeepBare st st' := by
  induction k generalizing st u vs with
  | zero => cases hr; exact ⟨fun j e hj => by omega, .refl⟩
  | succ k ih =>
    simp only [Sequential.vjpWeight] at hr
    obtain ⟨m, s1, h1, hr⟩ := bind_inv hr
    obtain ⟨rfl, e, he, hk, rfl⟩ := child_em h1
    obtain ⟨xk, s2, h2, hr⟩ := bind_inv hr
    obtain ⟨rfl, hx⟩ := fmap_L0 hb h2
    obtain ⟨vk, s3, h3, hr⟩ := bind_inv hr
    obtain ⟨rfl, hv⟩ := fmap_L0 hb h3
    obtain ⟨o, s4, h4, hr⟩ := bind_inv hr
    obtain ⟨a1, a2⟩ := (hL e he).vjpW hx (vok_some hv (hB e he)) _ _ h4
    by_cases h0 : k = 0
    · subst h0
      simp only [if_true] at hr
      cases hr
      exact ⟨Below.succ (fun j e hj => by omega) hk a1, a2⟩
    · simp only [if_neg h0] at hr
      obtain ⟨o', s5, h5, hr⟩ := bind_inv hr
      obtain ⟨-, a4⟩ := (hL e he).vjp hx (vok_some hv ((hB.keep a2) e he)) _ _ h5
      obtain ⟨t, s6, h6, hr⟩ := bind_inv hr
      have e5 := need_state h6
      subst e5
      have a5 := a2.trans a4
      obtain ⟨b1, b2⟩ := ih (a5 id hb) (hB.keep a5) hr
      exact ⟨b1.succ hk a1, a5.trans b2⟩

theorem empt_mjpWeight {id : Nat} (hL : ∀ e ∈ L, Empt e) (hb : Bare id st) (hB : BareAll L st) {u : Tensor ℝ} {k : Nat} {vs r : List (Tensor ℝ)}
    (hr : Sequential.mjpWeight id (L.map EM.m) k u vs st = (.ok r, st')) : Below L k (fun e => ¬ e.W) ∧ KeepBare st st' := by
  induction k generalizing st u vs with
  | zero => cases hr; exact ⟨fun j e hj => by omega, .refl⟩
  | succ k ih =>
    simp only [Sequential.mjpWeight] at hr
    obtain ⟨m, s1, h1, hr⟩ := bind_inv hr
    obtain ⟨rfl, e, he, hk, rfl⟩ := child_em h1
    obtain ⟨xk, s2, h2, hr⟩ := bind_inv hr
    obtain ⟨rfl, hx⟩ := fmap_L0 hb h2
    obtain ⟨vk, s3, h3, hr⟩ := bind_inv hr
    obtain ⟨rfl, hv⟩ := fmap_L0 hb h3
    obtain ⟨o, s4, h4, hr⟩ := bind_inv hr
    obtain ⟨a1, a2⟩ := (hL e he).mjpW hx (vok_some hv (hB e he)) _ _ h4
    by_cases h0 : k = 0
    · subst h0
      simp only [if_true] at hr
      cases hr
      exact ⟨Below.succ (fun j e hj => by omega) hk a1, a2⟩
    · simp only [if_neg h0] at hr
      obtain ⟨o', s5, h5, hr⟩ := bind_inv hr
      obtain ⟨-, a4⟩ := (hL e he).mjp hx (vok_some hv ((hB.keep a2) e he)) _ _ h5
      obtain ⟨t, s6, h6, hr⟩ := bind_inv hr
      have e5 := need_state h6
      subst e5
      have a5 := a2.trans a4
      obtain ⟨b1, b2⟩ := ih (a5 id hb) (hB.keep a5) hr
      exact ⟨b1.succ hk a1, a5.trans b2⟩

/-! the Sequential -/

theorem assert_state {p : Bool} {u : Unit} (h : Prog.assert p st = (.ok u, st')) : st = st' := by
  simp only [Prog.assert] at h
  split at h <;> cases h
  rfl

/-- what is known once `val` is there -/
structure Ready (id : Nat) (L : List EM) (val : Option (Tensor ℝ)) (st st' : Store ℝ) : Prop where
  keep : KeepBare st st'
  bare : Bare id st'
  all : BareAll L st'
  none : val = none → ∀ e ∈ L, ¬ e.F

theorem empt_getValN {id : Nat} (hL : ∀ e ∈ L, Empt e) (hl : Linked s L s') (hs : ShAll L st) (ho : HooksOk st) (hx : x.shape = 0 :: s)
    (hr : Sequential.getVal id true (L.map EM.m) x none st = (.ok y, st')) : Ready id L none st st' := by
  obtain ⟨a1, -, a2, a3, a4⟩ := empt_seqForward hL hl hs ho hx hr
  exact ⟨a2, a4, a3, fun _ => a1⟩

/-- the Sequential with what is said about it -/
noncomputable def seqEM (id : Nat) (L : List EM) (s s' : List Nat) : EM :=
  ⟨Sequential.mod id true (L.map EM.m), ShAll L, s, s', id :: L.flatMap EM.C, ∃ e ∈ L, e.F, ∃ e ∈ L, e.M, (∃ e ∈ L, e.F) ∨ ∃ e ∈ L, e.M, ∃ e ∈ L, e.W⟩

theorem vok_ready {id : Nat} {v : Tensor ℝ} (h : (seqEM id L s s').VOk (some v) st) (hr : Sequential.getVal id true (L.map EM.m) x (some v) st = (.ok y, st')) :
    Ready id L (some v) st st' := by
  cases hr
  obtain ⟨-, hb⟩ := h _ rfl
  exact ⟨.refl, hb id (by simp [seqEM]), fun e he i hi => hb i (by simp only [seqEM, List.mem_cons, List.mem_flatMap]; exact .inr ⟨e, he, hi⟩), by simp⟩

/-- what is known when a product wrt the input returned -/
def QIn (L : List EM) (val : Option (Tensor ℝ)) : Prop := ¬ ((val = none ∧ ∃ e ∈ L, e.F) ∨ ∃ e ∈ L, e.M)

theorem qin {val : Option (Tensor ℝ)} {id : Nat} (h : Ready id L val st st') (hm : ∀ e ∈ L, ¬ e.M) : QIn L val := by
  rintro (⟨hv, e, he, hF⟩ | ⟨e, he, hM⟩)
  · exact h.none hv e he hF
  · exact hm e he hM

section
variable {id : Nat} {val : Option (Tensor ℝ)} (hL : ∀ e ∈ L, Empt e)
  (hv : ∀ {y st'}, Sequential.getVal id true (L.map EM.m) x val st = (.ok y, st') → Ready id L val st st')
include hL hv

theorem empt_seqVjp {u : Tensor ℝ} : Out (Sequential.vjp id true (L.map EM.m) x val u .input) st (QIn L val) := by
  intro r st' h
  simp only [Sequential.vjp] at h
  obtain ⟨_, s1, h1, h⟩ := bind_inv h
  have e1 := assert_state h1; subst e1
  obtain ⟨y, s2, h2, h⟩ := bind_inv h
  have hr := hv h2
  obtain ⟨t, s3, h3, h⟩ := bind_inv h
  cases h
  rw [List.length_map] at h3
  obtain ⟨b1, b2⟩ := empt_vjpInput hL hr.bare hr.all h3
  exact ⟨qin hr b1.all, hr.keep.trans b2⟩

theorem empt_seqVjpW {u : Tensor ℝ} : Out (Sequential.vjp id true (L.map EM.m) x val u .weight) st ¬ ∃ e ∈ L, e.W := by
  intro r st' h
  simp only [Sequential.vjp] at h
  obtain ⟨_, s1, h1, h⟩ := bind_inv h
  have e1 := assert_state h1; subst e1
  obtain ⟨y, s2, h2, h⟩ := bind_inv h
  have hr := hv h2
  obtain ⟨t, s3, h3, h⟩ := bind_inv h
  have e4 := lift_state h; subst e4
  rw [List.length_map] at h3
  obtain ⟨b1, b2⟩ := empt_vjpWeight hL hr.bare hr.all h3
  exact ⟨fun ⟨e, he, hW⟩ => b1.all e he hW, hr.keep.trans b2⟩

theorem empt_seqMjp {u : Option (Tensor ℝ)} : Out (Sequential.mjp id true (L.map EM.m) x val u .input) st (QIn L val) := by
  intro r st' h
  simp only [Sequential.mjp] at h
  obtain ⟨_, s1, h1, h⟩ := bind_inv h
  have e1 := assert_state h1; subst e1
  obtain ⟨y, s2, h2, h⟩ := bind_inv h
  have hr := hv h2
  obtain ⟨M, s4, h4, h⟩ := bind_inv h
  have e4 := lift_state h4; subst e4
  obtain ⟨t, s3, h3, h⟩ := bind_inv h
  cases h
  rw [List.length_map] at h3
  obtain ⟨b1, b2⟩ := empt_mjpInput hL hr.bare hr.all h3
  exact ⟨qin hr b1.all, hr.keep.trans b2⟩

theorem empt_seqMjpW {u : Option (Tensor ℝ)} : Out (Sequential.mjp id true (L.map EM.m) x val u .weight) st ¬ ∃ e ∈ L, e.W := by
  intro r st' h
  simp only [Sequential.mjp] at h
  obtain ⟨_, s1, h1, h⟩ := bind_inv h
  have e1 := assert_state h1; subst e1
  obtain ⟨y, s2, h2, h⟩ := bind_inv h
  have hr := hv h2
  obtain ⟨M, s4, h4, h⟩ := bind_inv h
  have e4 := lift_state h4; subst e4
  obtain ⟨t, s3, h3, h⟩ := bind_inv h
  have e4 := lift_state h; subst e4
  rw [List.length_map] at h3
  obtain ⟨b1, b2⟩ := empt_mjpWeight hL hr.bare hr.all h3
  exact ⟨fun ⟨e, he, hW⟩ => b1.all e he hW, hr.keep.trans b2⟩

theorem empt_seqJTmjp {u : Option (Tensor ℝ)} {a b c : Bool} : Out (Sequential.jTmjp id true (L.map EM.m) x val u .input a b c) st (QIn L val) := by
  intro r st' h
  simp only [Sequential.jTmjp] at h
  obtain ⟨_, s1, h1, h⟩ := bind_inv h
  have e1 := assert_state h1; subst e1
  obtain ⟨y, s2, h2, h⟩ := bind_inv h
  have hr := hv h2
  obtain ⟨⟨M, d⟩, s4, h4, h⟩ := bind_inv h
  have e4 := lift_state h4; subst e4
  obtain ⟨t, s3, h3, h⟩ := bind_inv h
  cases h
  rw [List.length_map] at h3
  obtain ⟨b1, b2⟩ := empt_jTmjpInput hL hr.bare hr.all h3
  exact ⟨qin hr b1.all, hr.keep.trans b2⟩

theorem empt_seqJmjTp {u : PyVal ℝ} {a b c : Bool} : Out (Sequential.jmjTp id true (L.map EM.m) x val u .input a b c) st (QIn L val) := by
  intro r st' h
  simp only [Sequential.jmjTp] at h
  obtain ⟨_, s1, h1, h⟩ := bind_inv h
  have e1 := assert_state h1; subst e1
  obtain ⟨y, s2, h2, h⟩ := bind_inv h
  have hr := hv h2
  cases u <;>
  · obtain ⟨t, s3, h3, h⟩ := bind_inv h
    have e4 := lift_state h; subst e4
    rw [List.length_map] at h3
    obtain ⟨b1, b2⟩ := empt_jmjTpInput hL hr.bare hr.all h3
    exact ⟨qin hr b1, hr.keep.trans b2⟩
end

theorem empt_seq {id : Nat} (hL : ∀ e ∈ L, Empt e) (hl : Linked s L s') : Empt (seqEM id L s s') := by
  have hn : ∀ {st x}, ShAll L st → HooksOk st → x.shape = 0 :: s →
      ∀ {y st'}, Sequential.getVal id true (L.map EM.m) x none st = (.ok y, st') → Ready id L none st st' :=
    fun hs ho hx _ _ h => empt_getValN hL hl hs ho hx h
  have q1 : QIn L none → ¬ (seqEM id L s s').N := fun h h' => h (h'.imp (fun h => ⟨rfl, h⟩) fun h => h)
  have q2 : ∀ {v}, QIn L (some v) → ¬ (seqEM id L s s').M := fun h h' => h (.inr h')
  have mono : ∀ {β : Type} {c : Prog ℝ β} {st : Store ℝ} {P Q : Prop}, Out c st P → (P → Q) → Out c st Q := fun h hq r st' e => ⟨hq (h r st' e).1, (h r st' e).2⟩
  have fwd : (∀ e ∈ L, ¬ e.F ∧ ¬ e.M) → ¬ (seqEM id L s s').N := by
    rintro h (⟨e, he, h'⟩ | ⟨e, he, h'⟩)
    · exact (h e he).1 h'
    · exact (h e he).2 h'
  refine {
    tame := tame_seq (fun m hm => by obtain ⟨e, he, rfl⟩ := List.mem_map.1 hm; exact (hL e he).tame) id
    mn := .inr
    sh_of := fun k h => ShAll.keeps hL h k
    fwd := fun hs ho hx h => ?_
    fwdOk := fun hF hs ho hx => empt_seqForwardOk hL hl (fun e he h => hF ⟨e, he, h⟩) hs ho hx
    jvp := ?_, jmp := ?_, jmpW := ?_
    vjpN := fun hs ho hx => mono (empt_seqVjp hL (hn hs ho hx)) q1
    mjpN := fun hs ho hx => mono (empt_seqMjp hL (hn hs ho hx)) q1
    jacN := fun hs ho hx => mono (empt_seqMjp (u := none) hL (hn hs ho hx)) q1
    jTmjpN := fun hs ho hx => mono (empt_seqJTmjp hL (hn hs ho hx)) q1
    jmjTpN := fun hs ho hx => mono (empt_seqJmjTp hL (hn hs ho hx)) q1
    vjpWN := fun hs ho hx => empt_seqVjpW hL (hn hs ho hx)
    mjpWN := fun {st x u} hs ho hx => empt_seqMjpW (u := some u) hL (hn hs ho hx)
    vjp := fun _ hv => mono (empt_seqVjp hL (vok_ready hv)) q2
    mjp := fun _ hv => mono (empt_seqMjp hL (vok_ready hv)) q2
    jac := fun _ hv => mono (empt_seqMjp (u := none) hL (vok_ready hv)) q2
    jTmjp := fun _ hv => mono (empt_seqJTmjp hL (vok_ready hv)) q2
    jmjTp := fun _ hv => mono (empt_seqJmjTp hL (vok_ready hv)) q2
    vjpW := fun _ hv => empt_seqVjpW hL (vok_ready hv)
    mjpW := fun {st x v u} _ hv => empt_seqMjpW (u := some u) hL (vok_ready hv) }
  · obtain ⟨a1, a2, a3, a4, a5⟩ := empt_seqForward hL hl hs ho hx h
    refine ⟨fun ⟨e, he, hF⟩ => a1 e he hF, a2, a3, fun i hi => ?_⟩
    simp only [seqEM, List.mem_cons, List.mem_flatMap] at hi
    rcases hi with rfl | ⟨e, he, hi⟩
    · exact a5
    · exact a4 e he i hi
  · intro st x val u hs ho hx _ r st' h
    change Sequential.jvp (L.map EM.m) x val u .input st = _ at h
    simp only [Sequential.jvp] at h
    obtain ⟨_, s1, h1, h⟩ := bind_inv h
    have e1 := assert_state h1; subst e1
    obtain ⟨t, s3, h3, h⟩ := bind_inv h
    cases h
    obtain ⟨a1, a2⟩ := empt_jvpInput hL hl hs ho hx h3
    exact ⟨fwd a1, a2⟩
  · intro st x val u hs ho hx _ r st' h
    change Sequential.jmp id true (L.map EM.m) x val (some u) .input st = _ at h
    simp only [Sequential.jmp] at h
    obtain ⟨_, s1, h1, h⟩ := bind_inv h
    have e1 := assert_state h1; subst e1
    obtain ⟨t, s3, h3, h⟩ := bind_inv h
    cases h
    obtain ⟨a1, a2⟩ := empt_jmpInput hL hl hs ho hx h3
    exact ⟨fwd a1, a2⟩
  · intro st x val u hs ho hx _ r st' h
    change Sequential.jmp id true (L.map EM.m) x val (some u) .weight st = _ at h
    simp only [Sequential.jmp] at h
    obtain ⟨_, s1, h1, h⟩ := bind_inv h
    have e1 := assert_state h1; subst e1
    obtain ⟨⟨t, p⟩, s3, h3, h⟩ := bind_inv h
    obtain ⟨_, s4, h4, h⟩ := bind_inv h
    have e1 := assert_state h4; subst e1
    cases h
    obtain ⟨a1, a2⟩ := empt_jmpWeight hL hl hs ho hx h3
    exact ⟨fun ⟨e, he, hW⟩ => a1 e he hW, a2⟩

end

/-! ### SkipConnection -/

theorem Out.false {β : Type} {c : Prog ℝ β} {st : Store ℝ} {Q : Prop} (h : ∀ r st', c st ≠ (.ok r, st')) : Out c st Q := fun r st' e => (h r st' e).elim

theorem numel0_no {x : Tensor ℝ} (hx : L0 x) {β : Type} {f : Nat → Prog ℝ β} {st st' : Store ℝ} {r : β} :
    ((liftM x.numel0 : Prog ℝ Nat) >>= f) st ≠ (.ok r, st') := by
  intro h
  obtain ⟨l, s1, h1, -⟩ := bind_inv h
  exact numel0_L0 (Q := fun _ => False) hx l (congrArg Prod.fst h1)

/-- the SkipConnection with what is said about it -/
noncomputable def skipEM (id : Nat) (f : EM) (s s' : List Nat) : EM :=
  ⟨SkipConnection.mod id f.m, f.Sh, s, s', [], f.F, True, True, True⟩

theorem cat2_empty {x v : Tensor ℝ} {a c : Nat} {r : List Nat} (hx : x.shape = 0 :: a :: r) (hv : v.shape = 0 :: c :: r) :
    ∃ y, cat2 x v 1 = .ok y ∧ y.shape = 0 :: (a + c) :: r := by
  simp only [cat2, hx, hv, List.getElem?_cons_succ, List.getElem?_cons_zero, List.set, if_true]
  exact ⟨_, rfl, rfl⟩

theorem empt_skip {id a c : Nat} {r : List Nat} {f : EM} (hf : Empt f) (h1 : f.s = a :: r) (h2 : f.s' = c :: r) :
    Empt (skipEM id f (a :: r) ((a + c) :: r)) := by
  have jac : ∀ {st : Store ℝ} {x : Tensor ℝ} {val w np r st'}, L0 x → SkipConnection.jacobian f.m np x val w st ≠ (.ok r, st') := by
    intro st x val w np r st' hx h
    simp only [SkipConnection.jacobian] at h
    obtain ⟨_, s1, -, h⟩ := bind_inv h
    obtain ⟨_, s2, -, h⟩ := bind_inv h
    exact numel0_no hx h
  have jvp : ∀ {st : Store ℝ} {x : Tensor ℝ} {val u w r st'}, L0 x → SkipConnection.jvp f.m x val u w st ≠ (.ok r, st') := by
    intro st x val u w r st' hx h
    simp only [SkipConnection.jvp] at h
    obtain ⟨_, s2, -, h⟩ := bind_inv h
    exact numel0_no hx h
  have jmp : ∀ {st : Store ℝ} {x : Tensor ℝ} {val u w r st' np}, L0 x → SkipConnection.jmp f.m np x val u w st ≠ (.ok r, st') := by
    intro st x val u w r st' np hx h
    cases u with
    | none => exact jac hx h
    | some u =>
      simp only [SkipConnection.jmp] at h
      obtain ⟨_, s2, -, h⟩ := bind_inv h
      exact numel0_no hx h
  have vjp : ∀ {st : Store ℝ} {x : Tensor ℝ} {val u w r st'}, L0 x → SkipConnection.vjp f.m x val u w st ≠ (.ok r, st') := by
    intro st x val u w r st' hx h
    simp only [SkipConnection.vjp] at h
    exact numel0_no hx h
  have mjp : ∀ {st : Store ℝ} {x : Tensor ℝ} {val u w r st' np}, L0 x → SkipConnection.mjp f.m np x val u w st ≠ (.ok r, st') := by
    intro st x val u w r st' np hx h
    cases u with
    | none => exact jac hx h
    | some u =>
      simp only [SkipConnection.mjp] at h
      exact numel0_no hx h
  have jTmjp : ∀ {st : Store ℝ} {x : Tensor ℝ} {val u w a b c r st'}, L0 x → SkipConnection.jTmjp f.m x val u w a b c st ≠ (.ok r, st') := by
    intro st x val u w a b c r st' hx h
    simp only [SkipConnection.jTmjp] at h
    obtain ⟨_, s2, -, h⟩ := bind_inv h
    obtain ⟨_, s2, -, h⟩ := bind_inv h
    cases u <;> exact numel0_no hx h
  have jmjTp : ∀ {st : Store ℝ} {x : Tensor ℝ} {val u w a b c r st'}, L0 x → SkipConnection.jmjTp f.m x val u w a b c st ≠ (.ok r, st') := by
    intro st x val u w a b c r st' hx h
    simp only [SkipConnection.jmjTp] at h
    obtain ⟨_, s2, -, h⟩ := bind_inv h
    obtain ⟨_, s2, -, h⟩ := bind_inv h
    obtain ⟨_, s2, -, h⟩ := bind_inv h
    exact numel0_no hx h
  exact {
    tame := tame_skip hf.tame id
    mn := fun h => h
    sh_of := hf.sh_of
    fwd := fun {st x y st'} hs ho hx h => by
      change SkipConnection.forward f.m x st = _ at h
      simp only [SkipConnection.forward] at h
      obtain ⟨v, s1, h1', h⟩ := bind_inv h
      have hx' : x.shape = 0 :: f.s := by rw [h1]; exact hx
      obtain ⟨b1, b2, b3, -, -⟩ := hf.call hs ho hx' h1'
      obtain ⟨y', hy', hs'⟩ := cat2_empty hx (h2 ▸ b2)
      have e := lift_state h; subst e
      have e : cat2 x v 1 = .ok y := congrArg Prod.fst h
      rw [hy'] at e
      cases e
      exact ⟨b1, hs', b3, by simp [skipEM]⟩
    fwdOk := fun {st x} hF hs ho hx => by
      have hx' : x.shape = 0 :: f.s := by rw [h1]; exact hx
      obtain ⟨v, s1, hv⟩ := hf.callOk hF hs ho hx'
      obtain ⟨b1, b2, b3, -, -⟩ := hf.call hs ho hx' hv
      obtain ⟨y', hy', hs'⟩ := cat2_empty hx (h2 ▸ b2)
      refine ⟨y', s1, ?_⟩
      change SkipConnection.forward f.m x st = _
      simp only [SkipConnection.forward]
      rw [Prog.bind_run, hv]
      exact Prod.ext hy' rfl
    jvp := fun _ _ hx _ => Out.false fun _ _ => jvp ⟨_, hx⟩
    jmp := fun {st x val u} _ _ hx _ => Out.false fun _ _ => jmp (u := some u) (np := f.m.nParams) ⟨_, hx⟩
    jmpW := fun {st x val u} _ _ hx _ => Out.false fun _ _ => jmp (u := some u) (np := f.m.nParams) ⟨_, hx⟩
    vjpN := fun _ _ hx => Out.false fun _ _ => vjp ⟨_, hx⟩
    mjpN := fun {st x u} _ _ hx => Out.false fun _ _ => mjp (u := u) (np := f.m.nParams) ⟨_, hx⟩
    jacN := fun _ _ hx => Out.false fun _ _ => jac (np := f.m.nParams) ⟨_, hx⟩
    jTmjpN := fun _ _ hx => Out.false fun _ _ => jTmjp ⟨_, hx⟩
    jmjTpN := fun _ _ hx => Out.false fun _ _ => jmjTp ⟨_, hx⟩
    vjpWN := fun _ _ hx => Out.false fun _ _ => vjp ⟨_, hx⟩
    mjpWN := fun {st x u} _ _ hx => Out.false fun _ _ => mjp (u := some u) (np := f.m.nParams) ⟨_, hx⟩
    vjp := fun hx _ => Out.false fun _ _ => vjp hx
    mjp := fun {st x v u} hx _ => Out.false fun _ _ => mjp (u := u) (np := f.m.nParams) hx
    jac := fun hx _ => Out.false fun _ _ => jac (np := f.m.nParams) hx
    jTmjp := fun hx _ => Out.false fun _ _ => jTmjp hx
    jmjTp := fun hx _ => Out.false fun _ _ => jmjTp hx
    vjpW := fun hx _ => Out.false fun _ _ => vjp hx
    mjpW := fun {st x v u} hx _ => Out.false fun _ _ => mjp (u := some u) (np := f.m.nParams) hx }

/-! ### networks -/

mutual
/-- the network with what is said about it -/
noncomputable def Net.em : {s s' : List Nat} → {n k p : Nat} → Net s n s' k p → EM
  | _, _, _, _, _, .linear id wId bId i o _ _ =>
    ⟨Linear.mod id wId bId i o, fun st => (st.param wId).shape = [o, i] ∧ ∀ b ∈ bId, (st.param b).shape = [o], [i], [o], [], False, False, False, True⟩
  | _, _, _, _, _, .act a id s _ _ _ => ⟨Activation.toMod a.layer id, fun _ => True, s, s, [], False, True, True, False⟩
  | _, _, _, _, _, .flatten id s n _ _ => ⟨Resh.flatten id, fun _ => True, s, [n], [], True, False, False, False⟩
  | _, _, _, _, _, .reshape id s dims _ _ _ _ z _ => ⟨Resh.reshape z id, fun _ => True, s, dims, [], (-1 : Int) ∈ z, False, False, False⟩
  | _, _, _, _, _, .l2norm id eps s _ _ _ _ => ⟨L2Norm.mod eps id, fun _ => True, s, s, [], True, True, True, False⟩
  | _, _, _, _, _, .conv id wId bId g =>
    ⟨Conv2d.mod (g.cfg bId) id wId (bId.getD 0), fun st => (st.param wId).shape = [g.c2, g.c1, g.kh, g.kw] ∧ ∀ b ∈ bId, (st.param b).shape = [g.c2],
      [g.c1, g.h1, g.w1], [g.c2, g.h2, g.w2], [], False, False, False, False⟩
  | _, _, _, _, _, .upsample id c h w r _ _ _ _ => ⟨Upsample.mod ⟨r, 1⟩ id, fun _ => True, [c, h, w], [c, h * r, w * r], [], False, False, False, False⟩
  | _, _, _, _, _, .maxpool id g => ⟨MaxPool2d.mod g.a id, fun _ => True, [g.c, g.h, g.w], [g.c, g.h2, g.w2], [], False, False, False, False⟩
  | _, _, _, _, _, @Net.seq s s' _ _ _ _ id c => seqEM id c.ems s s'
  | _, _, _, _, _, @Net.skip a c r _ _ _ _ id fid ch => skipEM id (seqEM fid ch.ems (a :: r) (c :: r)) (a :: r) ((a + c) :: r)
/-- the modules of a chain -/
noncomputable def Chain.ems : {s s' : List Nat} → {n k p l : Nat} → Chain s n s' k p l → List EM
  | _, _, _, _, _, _, .nil .. => []
  | _, _, _, _, _, _, .snoc c m => c.ems ++ [m.em]
end

/-- `em` says what it should -/
structure Net.EmOk {s s' : List Nat} {n k p : Nat} (N : Net s n s' k p) : Prop where
  empt : Empt N.em
  m : N.em.m = N.mod
  s : N.em.s = s
  s' : N.em.s' = s'
  sh : ∀ st, N.em.Sh st ↔ N.Shapes st
  F : N.em.F ↔ N.RejFwd
  M : N.em.M ↔ N.RejIn
  W : N.em.W ↔ N.RejW

/-- `ems` says what it should -/
structure Chain.EmOk {s s' : List Nat} {n k p l : Nat} (c : Chain s n s' k p l) : Prop where
  empt : ∀ e ∈ c.ems, Empt e
  m : c.ems.map EM.m = c.mods
  linked : Linked s c.ems s'
  sh : ∀ st, ShAll c.ems st ↔ c.Shapes st
  F : (∃ e ∈ c.ems, e.F) ↔ c.RejFwd
  M : (∃ e ∈ c.ems, e.M) ↔ c.RejIn
  W : (∃ e ∈ c.ems, e.W) ↔ c.RejW

theorem exists_snoc {P : EM → Prop} {L : List EM} {e : EM} {A B : Prop} (h1 : (∃ e ∈ L, P e) ↔ A) (h2 : P e ↔ B) : (∃ e' ∈ L ++ [e], P e') ↔ A ∨ B := by
  rw [← h1, ← h2]
  simp only [List.mem_append, List.mem_singleton]
  constructor
  · rintro ⟨e', h | rfl, hp⟩
    · exact .inl ⟨e', h, hp⟩
    · exact .inr hp
  · rintro (⟨e', h, hp⟩ | hp)
    · exact ⟨e', .inl h, hp⟩
    · exact ⟨e, .inr rfl, hp⟩

mutual
theorem Net.emOk : {s s' : List Nat} → {n k p : Nat} → (N : Net s n s' k p) → N.EmOk
  | _, _, _, _, _, .linear id wId bId i o hi ho => ⟨by simp only [Net.em]; exact empt_linear id wId bId i o ho, by simp only [Net.em, Net.mod], by simp only [Net.em],
      by simp only [Net.em], fun st => by simp only [Net.em, Net.Shapes], by simp only [Net.em, Net.RejFwd], by simp only [Net.em, Net.RejIn], by simp only [Net.em, Net.RejW]⟩
  | _, _, _, _, _, .act a id s _ _ _ => ⟨by simp only [Net.em]; exact empt_act a id s, by simp only [Net.em, Net.mod], by simp only [Net.em],
      by simp only [Net.em], fun st => by simp only [Net.em, Net.Shapes], by simp only [Net.em, Net.RejFwd], by simp only [Net.em, Net.RejIn], by simp only [Net.em, Net.RejW]⟩
  | _, _, _, _, _, .flatten id s n _ _ => ⟨by simp only [Net.em]; exact empt_flatten id s [n], by simp only [Net.em, Net.mod], by simp only [Net.em],
      by simp only [Net.em], fun st => by simp only [Net.em, Net.Shapes], by simp only [Net.em, Net.RejFwd], by simp only [Net.em, Net.RejIn], by simp only [Net.em, Net.RejW]⟩
  | _, _, _, _, _, .reshape id s dims n _ hd _ z hz => ⟨by simp only [Net.em]; exact empt_reshape z id s dims n hd hz, by simp only [Net.em, Net.mod], by simp only [Net.em],
      by simp only [Net.em], fun st => by simp only [Net.em, Net.Shapes], by simp only [Net.em, Net.RejFwd], by simp only [Net.em, Net.RejIn], by simp only [Net.em, Net.RejW]⟩
  | _, _, _, _, _, .l2norm id eps s _ _ _ _ => ⟨by simp only [Net.em]; exact empt_l2 eps id s, by simp only [Net.em, Net.mod], by simp only [Net.em],
      by simp only [Net.em], fun st => by simp only [Net.em, Net.Shapes], by simp only [Net.em, Net.RejFwd], by simp only [Net.em, Net.RejIn], by simp only [Net.em, Net.RejW]⟩
  | _, _, _, _, _, .conv id wId bId g => ⟨by simp only [Net.em]; exact empt_conv id wId bId g, by simp only [Net.em, Net.mod], by simp only [Net.em],
      by simp only [Net.em], fun st => by simp only [Net.em, Net.Shapes], by simp only [Net.em, Net.RejFwd], by simp only [Net.em, Net.RejIn], by simp only [Net.em, Net.RejW]⟩
  | _, _, _, _, _, .upsample id c h w r _ hh hw hr => ⟨by simp only [Net.em]; exact empt_up id c h w r hh hw hr, by simp only [Net.em, Net.mod], by simp only [Net.em],
      by simp only [Net.em], fun st => by simp only [Net.em, Net.Shapes], by simp only [Net.em, Net.RejFwd], by simp only [Net.em, Net.RejIn], by simp only [Net.em, Net.RejW]⟩
  | _, _, _, _, _, .maxpool id g => ⟨by simp only [Net.em]; exact empt_pool id g, by simp only [Net.em, Net.mod], by simp only [Net.em],
      by simp only [Net.em], fun st => by simp only [Net.em, Net.Shapes], by simp only [Net.em, Net.RejFwd], by simp only [Net.em, Net.RejIn], by simp only [Net.em, Net.RejW]⟩
  | _, _, _, _, _, .seq id c => by
    have h := c.emOk
    exact ⟨by simp only [Net.em]; exact empt_seq h.empt h.linked, by simp only [Net.em, Net.mod, seqEM, h.m], by simp only [Net.em, seqEM], by simp only [Net.em, seqEM],
      fun st => by simp only [Net.em, Net.Shapes, seqEM]; exact h.sh st, by simp only [Net.em, Net.RejFwd, seqEM]; exact h.F,
      by simp only [Net.em, Net.RejIn, seqEM]; exact h.M, by simp only [Net.em, Net.RejW, seqEM]; exact h.W⟩
  | _, _, _, _, _, .skip id fid c => by
    have h := c.emOk
    exact ⟨by simp only [Net.em]; exact empt_skip (empt_seq h.empt h.linked) rfl rfl, by simp only [Net.em, Net.mod, skipEM, seqEM, h.m], by simp only [Net.em, skipEM],
      by simp only [Net.em, skipEM],
      fun st => by simp only [Net.em, Net.Shapes, skipEM, seqEM]; exact h.sh st, by simp only [Net.em, Net.RejFwd, skipEM, seqEM]; exact h.F,
      by simp only [Net.em, Net.RejIn, skipEM], by simp only [Net.em, Net.RejW, skipEM]⟩
theorem Chain.emOk : {s s' : List Nat} → {n k p l : Nat} → (c : Chain s n s' k p l) → c.EmOk
  | _, _, _, _, _, _, .nil .. => ⟨by simp [Chain.ems], by simp [Chain.ems, Chain.mods], by simp [Chain.ems, Linked], by simp [Chain.ems, ShAll, Chain.Shapes],
      by simp [Chain.ems, Chain.RejFwd], by simp [Chain.ems, Chain.RejIn], by simp [Chain.ems, Chain.RejW]⟩
  | _, _, _, _, _, _, .snoc c m => by
    have h := c.emOk
    have hm := m.emOk
    refine ⟨?_, ?_, ?_, ?_, ?_, ?_, ?_⟩ <;> simp only [Chain.ems, Chain.mods, Chain.Shapes, Chain.RejFwd, Chain.RejIn, Chain.RejW]
    · intro e he
      rcases List.mem_append.1 he with he | he
      · exact h.empt e he
      · rw [List.mem_singleton.1 he]; exact hm.empt
    · rw [List.map_append, h.m, List.map_singleton, hm.m]
    · have := h.linked.snoc hm.s
      rwa [hm.s'] at this
    · intro st
      rw [← h.sh st, ← hm.sh st]
      simp only [ShAll, List.mem_append, List.mem_singleton]
      exact ⟨fun h => ⟨fun e he => h e (.inl he), h _ (.inr rfl)⟩, fun h e he => he.elim (h.1 e) fun he => he ▸ h.2⟩
    · exact exists_snoc h.F hm.F
    · exact exists_snoc h.M hm.M
    · exact exists_snoc h.W hm.W
end

end NNJ
