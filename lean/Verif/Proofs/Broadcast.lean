import Verif.Proofs.BroadcastLeaf
import Verif.Proofs.NetFacts

/-! Vectors whose number of rows is not the batch size: networks. -/

namespace NNJ
open Tensor Matrix

variable {sI sO : List Nat} {n k p l : Nat}

/-- `u` has the rows `V`, or (`f = false`) the one row that all `V` are equal to -/
def Loose (f : Bool) (u : Tensor ℝ) (T k : Nat) (V : Fin T → Fin k → ℝ) : Prop :=
  if f then IsVec u T k V else ∃ V0 : Fin k → ℝ, IsVec u 1 k (fun _ => V0) ∧ ∀ r, V r = V0

theorem Loose.congr {f : Bool} {u : Tensor ℝ} {T k : Nat} {V V' : Fin T → Fin k → ℝ} (h : Loose f u T k V) (e : ∀ r i, V r i = V' r i) :
    Loose f u T k V' := by
  have : V = V' := by funext r i; exact e r i
  rwa [← this]

/-- how `vjp` wrt input treats a vector whose number of rows is not the batch size; `e`: an elementwise layer is involved -/
structure Mdl.VjpRows (M : Mdl sI n sO k p) (e : Bool) : Prop where
  fit : ∀ {s B X x u T f V} (β : Fin T → Fin B), M.wired s → 0 < B → 0 < T →
    ((B = T ∧ ∀ r, (β r : Nat) = r) ∨ (B = 1 ∧ f = true)) → IsBatch x B sI n X → Loose f u T k V →
    M.Back s X (fun val => M.m.vjp x val u .input) (IsSome fun t => Loose (f || e) t T n fun r => V r ᵥ* M.J s X (β r))
  bad : ∀ {s B X x u R U}, M.wired s → 0 < B → R ≠ 1 → B ≠ 1 → R ≠ B → IsBatch x B sI n X → IsVec u R k U →
    if e then (∀ v, M.VOk s X v → M.cache B X s → M.m.vjp x (some v) u .input s = (.error .shape, s)) ∧
      (M.m.vjp x none u .input s).1 = .error .shape
    else ∀ b, M.Back s X (fun val => M.m.vjp x val u .input) (IsSome fun t => IsVec t R n fun r => U r ᵥ* M.J s X b)

namespace MChain

def VjpRows : {sI sO : List Nat} → {n k p l : Nat} → MChain sI n sO k p l → Bool → Prop
  | _, _, _, _, _, _, .nil _ _, e => e = false
  | _, _, _, _, _, _, .snoc c M, e => ∃ e1 e2, e = (e1 || e2) ∧ c.VjpRows e1 ∧ M.VjpRows e2

section
variable {q B : Nat} {X : Fin B → Fin n → ℝ} {s : Store ℝ} {c : MChain sI n sO k p l}

theorem vjp_rows {e : Bool} (hr : c.VjpRows e) (hB : 0 < B) {T : Nat} (hT : 0 < T) (β : Fin T → Fin B) (he : Env q c B X s) (rest : List (Mod ℝ))
    {f : Bool} (hf : (B = T ∧ ∀ r, (β r : Nat) = r) ∨ (B = 1 ∧ f = true)) {u : Tensor ℝ} {V : Fin T → Fin k → ℝ} (hu : Loose f u T k V) :
    Run (Sequential.vjpInput q (c.mods ++ rest) l u) s fun t s' => Loose (f || e) t T n (fun r => V r ᵥ* c.J s X (β r)) ∧ s' = s := by
  induction c generalizing rest u f e with
  | nil =>
    have hr : e = false := hr
    subst hr
    refine Run.pure ⟨?_, rfl⟩
    rw [Bool.or_false]
    exact hu.congr fun b i => by simp [J, S, Sem.id]
  | snoc c M ih =>
    obtain ⟨e1, e2, rfl, h1, h2⟩ := hr
    obtain ⟨x, v, h⟩ := he.last
    rw [mods_snoc_append]
    refine run_body h rest ?_
    refine Run.bindNeed ((h2.fit β h.wired hB hT hf h.x_ok hu).1 v h.v_ok h.cache) fun t s' ht hs => ?_
    subst hs
    have hf' : (B = T ∧ ∀ r, (β r : Nat) = r) ∨ (B = 1 ∧ (f || e2) = true) := hf.imp id fun h => ⟨h.1, by simp [h.2]⟩
    refine (ih h1 h.env (M.m :: rest) hf' ht).mono fun t s'' ⟨ht, hs⟩ => ⟨?_, hs⟩
    rw [show (f || (e1 || e2)) = (f || e2 || e1) by cases f <;> cases e1 <;> cases e2 <;> rfl]
    refine ht.congr fun b i => ?_
    rw [J_snoc, ← vecMul_vecMul]

theorem vjp_rows_bad {e : Bool} (hr : c.VjpRows e) (hB : 0 < B) {R : Nat} (h1 : R ≠ 1) (h2 : B ≠ 1) (h3 : R ≠ B) (he : Env q c B X s)
    (rest : List (Mod ℝ)) {u : Tensor ℝ} {U : Fin R → Fin k → ℝ} (hu : IsVec u R k U) :
    if e then Sequential.vjpInput q (c.mods ++ rest) l u s = (.error .shape, s)
    else ∀ b, Run (Sequential.vjpInput q (c.mods ++ rest) l u) s fun t s' => IsVec t R n (fun r => U r ᵥ* c.J s X b) ∧ s' = s := by
  induction c generalizing rest u e with
  | nil =>
    have hr : e = false := hr
    subst hr
    exact fun b => Run.pure ⟨hu.congr fun b i => by simp [J, S, Sem.id], rfl⟩
  | @snoc _ _ _ _ _ _ _ l c M ih =>
    obtain ⟨e1, e2, rfl, hr1, hr2⟩ := hr
    obtain ⟨x, v, h⟩ := he.last
    rw [mods_snoc_append]
    have hb := hr2.bad h.wired hB h1 h2 h3 h.x_ok hu
    have body : ∀ {r s'}, M.m.vjp x (some v) u .input s = (r, s') →
        Sequential.vjpInput q (c.mods ++ M.m :: rest) (l + 1) u s =
          (match r with
            | .ok t => (Prog.need t >>= fun t => Sequential.vjpInput q (c.mods ++ M.m :: rest) l t) s'
            | .error e => (.error e, s')) := by
      intro r s' hr
      rw [Sequential.vjpInput, Prog.bind_ok (child_snoc c M rest s), Prog.bind_ok h.x_eq, Prog.bind_ok h.v_eq]
      cases r with
      | ok t => rw [Prog.bind_ok hr]
      | error e => rw [Prog.bind_error hr]
    cases e2 with
    | true =>
      simp only [Bool.or_true, if_true] at hb ⊢
      rw [body (hb.1 v h.v_ok h.cache)]
    | false =>
      simp only [Bool.or_false, Bool.false_eq_true, if_false] at hb ⊢
      have b0 : Fin B := ⟨0, hB⟩
      obtain ⟨r, s', hr, ht, hs⟩ := (hb b0).1 v h.v_ok h.cache
      subst hs
      cases r with
      | none => exact ht.elim
      | some t =>
        have := ih hr1 h.env (M.m :: rest) ht
        rw [body hr]
        cases e1 with
        | true => exact this
        | false =>
          intro b
          obtain ⟨r', s', hr', ht', hs⟩ := (hb b).1 v h.v_ok h.cache
          rw [hr] at hr'
          cases hr'
          have := ih hr1 h.env (M.m :: rest) ht'
          obtain ⟨t', s', e', ht', hs⟩ := this b
          refine ⟨t', s', ?_, ht'.congr fun b i => ?_, hs⟩
          · rw [body hr]; exact e'
          · rw [J_snoc, ← vecMul_vecMul]

end

theorem rows_seq {q : Nat} {c : MChain sI n sO k p (l + 1)} (hg : c.AllGood) (hnd : (q :: c.ids).Nodup) {e : Bool} (hr : c.VjpRows e) :
    (seqMdl q c).VjpRows e := by
  have hlen := c.mods_length
  constructor
  · intro s B X x u T f V β hw hB hT hf hx hu
    refine seq_back hg hnd hw hB hx (f := fun _ => do let r ← Sequential.vjpInput q c.mods c.mods.length u; Pure.pure (some r))
        fun s' v hpar hw' he => ?_
    have := vjp_rows hr hB hT β he [] hf hu
    rw [List.append_nil] at this
    rw [hlen]
    refine this.bind fun t s'' ⟨ht, hs⟩ => Run.pure ⟨?_, hs⟩
    rw [c.J_of hg hpar] at ht; exact ht
  · intro s B X x u R U hw hB h1 h2 h3 hx hu
    cases e with
    | false =>
      intro b
      refine seq_back hg hnd hw hB hx (f := fun _ => do let r ← Sequential.vjpInput q c.mods c.mods.length u; Pure.pure (some r))
        fun s' v hpar hw' he => ?_
      have := vjp_rows_bad hr hB h1 h2 h3 he [] hu
      rw [List.append_nil] at this
      rw [hlen]
      refine (this b).bind fun t s'' ⟨ht, hs⟩ => Run.pure ⟨?_, hs⟩
      rw [c.J_of hg hpar] at ht; exact ht
    | true =>
      have key : ∀ s', Env q c B X s' →
          (do let r ← Sequential.vjpInput q c.mods c.mods.length u; Pure.pure (some r) : Prog ℝ _) s' = (.error .shape, s') := by
        intro s' he
        have := vjp_rows_bad hr hB h1 h2 h3 he [] hu
        rw [List.append_nil] at this
        rw [hlen]
        exact Prog.bind_error this
      refine ⟨fun v _ hc => key s (env_of_cache hc hw), ?_⟩
      obtain ⟨y, s', hy, _, hst, hc⟩ := seq_forward hg hnd hw hB hx
      have hw' : (seqMdl q c).wired s' := ⟨by rw [hst.some]; exact hw.1, c.wired_of hg hst.wiring hw.2⟩
      have : (Sequential.forward q true c.mods x >>= fun _ => (do
          let r ← Sequential.vjpInput q c.mods c.mods.length u; Pure.pure (some r) : Prog ℝ _)) s = (.error .shape, s') := by
        rw [Prog.bind_ok hy, key s' (env_of_cache hc hw')]
      exact congrArg Prod.fst this

end MChain

/-! ### layers -/

theorem rows_leaf_pass {L : Store ℝ → PureLayer ℝ} {id : Nat} {params : List Nat} {wired : Store ℝ → Prop} {w : Store ℝ → Fin p → ℝ} {fwd : Prop}
    {S : Sem n k p} (hS : ∀ s, wired s → ∀ x x', S.J (w s) x = S.J (w s) x')
    (h : ∀ s, wired s → ∀ {x val u R U} (z : Fin n → ℝ), IsVec u R k U →
      Ret ((L s).vjp x val u .input) (IsSome fun t => IsVec t R n fun r => U r ᵥ* S.J (w s) z)) :
    (Mdl.leaf (PureLayer.toMod L id p params) sI n sO k p S wired w fwd).VjpRows false := by
  constructor
  · intro s B X x u T f V β hw hB hT hf hx hu
    refine back_of_pure (fun _ _ _ => trivial) fun val _ => run_pure_some ?_
    rw [Bool.or_false]
    have hJ : ∀ b b', (Mdl.leaf (PureLayer.toMod L id p params) sI n sO k p S wired w fwd).J s X b =
      (Mdl.leaf (PureLayer.toMod L id p params) sI n sO k p S wired w fwd).J s X b' := fun b b' => hS s hw _ _
    cases f with
    | true =>
      refine (h s hw (x := x) (val := val) (X ⟨0, hB⟩) hu).mono fun t ht => IsSome.mono ht fun t ht => ?_
      exact IsVec.congr ht fun r i => by rw [hJ (β r) ⟨0, hB⟩]; rfl
    | false =>
      obtain ⟨V0, hV, e⟩ := hu
      refine (h s hw (x := x) (val := val) (X ⟨0, hB⟩) hV).mono fun t ht => IsSome.mono ht fun t ht => ⟨_, ht, fun r => ?_⟩
      dsimp only
      rw [e, hJ (β r) ⟨0, hB⟩]; rfl
  · intro s B X x u R U hw hB h1 h2 h3 hx hu
    exact fun b => back_of_pure (fun _ _ _ => trivial) fun val _ => run_pure_some (h s hw (x := x) (val := val) (X b) hu)

theorem rows_act (a : Act) (id : Nat) {s : List Nat} {n : Nat} (hs : size s = n) :
    (Mdl.leaf (Activation.toMod a.layer id) s n s n 0 (a.sem n) (fun _ => True) fun _ _ => 0).VjpRows true := by
  obtain ⟨fwd, jac, ha, hd⟩ := act_diag a hs
  have hV : ∀ {st B} {X : Fin B → Fin n → ℝ} {val : Option (Tensor ℝ)},
      (∀ v ∈ val, (Mdl.leaf (Activation.toMod a.layer id) s n s n 0 (a.sem n) (fun _ => True) fun _ _ => 0).VOk st X v) →
      ∀ v ∈ val, IsBatch v B s n fun b i => a.fn (X b i) :=
    fun hv v hvv => (hv v hvv).resolve_left (fun h => h)
  constructor
  · intro st B X x u T f V β hw hB hT hf hx hu
    refine back_of_pure (fun _ _ _ => trivial) fun val hv => run_pure_some ?_
    rw [ha, Bool.or_true]
    obtain ⟨d, hd, hD⟩ := (hd hB hx (hV hv)).exists_some
    simp only [AbstractDiagonal.defaults, AbstractDiagonal.vjp, hd, Res.bind_ok]
    cases f with
    | true =>
      refine ((ein_bi_bi_rows hT hB hu hD (by omega)).mono fun r hr => ?_).some
      have e : (if T = 1 then B else T) = T := by split_ifs <;> omega
      refine ⟨by rw [hr.1, e], fun b i => ?_⟩
      have h1 : rowOr0 hT (b : Nat) = b := by simp [rowOr0]
      have h2 : rowOr0 hB (b : Nat) = β b := by
        apply Fin.ext
        simp only [rowOr0]
        rcases hf with ⟨rfl, h⟩ | ⟨rfl, _⟩
        · rw [h]; simp
        · omega
      have := hr.2 ⟨b, by rw [e]; exact b.2⟩ i
      simp only [h1, h2] at this
      show _ = (V b ᵥ* diagonal fun i => a.deriv (X (β b) i)) i
      rw [vecMul_diag]
      exact this
    | false =>
      obtain ⟨V0, hV, e0⟩ := hu
      obtain ⟨rfl, hβ⟩ : B = T ∧ ∀ r, (β r : Nat) = r := by
        rcases hf with h | ⟨_, h⟩
        · exact h
        · cases h
      refine ((ein_bi_bi_rows Nat.one_pos hB hV hD (by omega)).mono fun r hr => ?_).some
      refine ⟨by rw [hr.1]; simp, fun b i => ?_⟩
      have h2 : rowOr0 hB (b : Nat) = β b := by
        apply Fin.ext
        rw [hβ]; simp [rowOr0]
      have := hr.2 ⟨b, by simp⟩ i
      simp only [h2] at this
      show _ = (V b ᵥ* diagonal fun i => a.deriv (X (β b) i)) i
      rw [vecMul_diag, e0]
      exact this
  · intro st B X x u R U hw hB h1 h2 h3 hx hu
    have : ∀ val, (∀ v ∈ val, (Mdl.leaf (Activation.toMod a.layer id) s n s n 0 (a.sem n) (fun _ => True) fun _ _ => 0).VOk st X v) →
        (Activation.toMod a.layer id).vjp x val u .input st = (.error .shape, st) := by
      intro val hv
      obtain ⟨d, hd, hD⟩ := (hd hB hx (hV hv)).exists_some
      simp only [Activation.toMod, PureLayer.toMod, ha, AbstractDiagonal.defaults, AbstractDiagonal.vjp, hd, Res.bind_ok]
      rw [ein_bi_bi_bad hu hD h1 h2 h3]; rfl
    exact ⟨fun v hv _ => this (some v) (by simpa using hv), by
      show ((Activation.toMod a.layer id).vjp x none u .input st).1 = _
      rw [this none (by simp)]⟩

/-! ### networks -/

mutual
theorem Net.vjpRows : {s s' : List Nat} → {n k p : Nat} → (N : Net s n s' k p) → N.ids.Nodup → N.plain = true → N.mdl.VjpRows N.hasAct
  | _, _, _, _, _, .linear id wId bId i o hi ho, _, _ => by
    simp only [Net.mdl, Net.hasAct]
    refine rows_leaf_pass (fun _ _ _ _ => rfl) fun s hs {x val u R U} z hu => ?_
    refine (ein_bj_jk hs.1 (fun a j => ?_) hu).some
    show _ = linearW wId bId i o s (Fin.castAdd _ (finProdFinEquiv (a, j)))
    rw [get2 hs.1, linearW, Fin.append_left, finProdFinEquiv_apply_val]
    congr 1
    simp only; ring
  | _, _, _, _, _, .act a id s n hs hn, _, _ => by
    simp only [Net.mdl, Net.hasAct]
    exact rows_act a id hs
  | _, _, _, _, _, .flatten id s n hs hn, _, _ => by
    simp only [Net.mdl, Net.hasAct]
    exact rows_leaf_pass (fun _ _ _ _ => rfl) fun s hs {x val u R U} z hu => Ret.ok (IsVec.congr hu fun r i => by
      show _ = (U r ᵥ* (1 : Matrix _ _ ℝ)) i
      rw [vecMul_one])
  | _, _, _, _, _, .reshape id s dims n hs hd hn z hz, _, _ => by
    simp only [Net.mdl, Net.hasAct]
    exact rows_leaf_pass (fun _ _ _ _ => rfl) fun s hs {x val u R U} z hu => Ret.ok (IsVec.congr hu fun r i => by
      show _ = (U r ᵥ* (1 : Matrix _ _ ℝ)) i
      rw [vecMul_one])
  | _, _, _, _, _, .l2norm .., _, h => by simp [Net.plain] at h
  | _, _, _, _, _, .conv .., _, h => by simp [Net.plain] at h
  | _, _, _, _, _, .upsample .., _, h => by simp [Net.plain] at h
  | _, _, _, _, _, .maxpool .., _, h => by simp [Net.plain] at h
  | _, _, _, _, _, .seq id c, hnd, h => by
    simp only [Net.mdl, Net.hasAct]
    simp only [Net.ids] at hnd
    simp only [Net.plain] at h
    exact MChain.rows_seq (Chain.good c (List.nodup_cons.1 hnd).2) (by rw [Chain.mchain_ids]; exact hnd)
      (Chain.vjpRows c (List.nodup_cons.1 hnd).2 h)
  | _, _, _, _, _, .skip .., _, h => by simp [Net.plain] at h
theorem Chain.vjpRows : {s s' : List Nat} → {n k p l : Nat} → (c : Chain s n s' k p l) → c.ids.Nodup → c.plain = true → c.mchain.VjpRows c.hasAct
  | _, _, _, _, _, _, .nil _ _ hs hn, _, _ => by simp only [Chain.mchain, MChain.VjpRows, Chain.hasAct]
  | _, _, _, _, _, _, .snoc c m, hnd, h => by
    simp only [Chain.ids, List.nodup_append] at hnd
    simp only [Chain.plain, Bool.and_eq_true] at h
    simp only [Chain.mchain, MChain.VjpRows, Chain.hasAct]
    exact ⟨_, _, rfl, Chain.vjpRows c hnd.1 h.1, Net.vjpRows m hnd.2.1 h.2⟩
end

end NNJ
