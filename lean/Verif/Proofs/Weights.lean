import Verif.Spec.Weights
import Verif.Proofs.NetFacts
import Verif.Proofs.Build

/-! `get_weight`, `set_weight`. -/

namespace NNJ
open Tensor

theorem flatLen_cons (st : Store ℝ) (i : Nat) (is : List Nat) : flatLen st (i :: is) = (st.param i).numel + flatLen st is := rfl
theorem flatAt_cons (st : Store ℝ) (i : Nat) (is : List Nat) (k : Nat) :
    flatAt st (i :: is) k = if k < (st.param i).numel then (st.param i).data k else flatAt st is (k - (st.param i).numel) := rfl

theorem flatLen_append (st : Store ℝ) (as bs : List Nat) : flatLen st (as ++ bs) = flatLen st as + flatLen st bs := by
  induction as with
  | nil => simp [flatLen]
  | cons a as ih => simp only [List.cons_append, flatLen, ih]; omega

theorem flatAt_append (st : Store ℝ) (as bs : List Nat) (k : Nat) :
    flatAt st (as ++ bs) k = if k < flatLen st as then flatAt st as k else flatAt st bs (k - flatLen st as) := by
  induction as generalizing k with
  | nil => simp [flatLen]
  | cons a as ih =>
    rw [List.cons_append, flatAt_cons, flatAt_cons, flatLen_cons, ih]
    split_ifs with h1 h2 h3 h4 h5
    · rfl
    · omega
    · rfl
    · omega
    · omega
    · rw [Nat.sub_sub]

/-- only the listed parameters matter -/
theorem flat_congr {st st' : Store ℝ} {is : List Nat} (h : ∀ i ∈ is, TEq (st'.param i) (st.param i)) :
    flatLen st' is = flatLen st is ∧ ∀ k < flatLen st is, flatAt st' is k = flatAt st is k := by
  induction is with
  | nil => exact ⟨rfl, fun _ h => by simp [flatLen] at h⟩
  | cons i is ih =>
    obtain ⟨h1, h2⟩ := ih fun j hj => h j (by simp [hj])
    have hi := h i (by simp)
    have hn : (st'.param i).numel = (st.param i).numel := by simp only [Tensor.numel, hi.1]
    refine ⟨by simp only [flatLen, h1, hn], fun k hk => ?_⟩
    simp only [flatLen] at hk
    simp only [flatAt, hn]
    by_cases hlt : k < (st.param i).numel
    · rw [if_pos hlt, if_pos hlt]
      exact hi.2 k (by rw [hi.1]; exact hlt)
    · rw [if_neg hlt, if_neg hlt]
      exact h2 _ (by omega)

/-! ### get_weight -/

theorem cat2_vec1 {a b : Tensor ℝ} {m n : Nat} (ha : a.shape = [m]) (hb : b.shape = [n]) :
    ∃ t, Tensor.cat2 a b 0 = .ok t ∧ t.shape = [m + n] ∧ ∀ k < m + n, t.data k = if k < m then a.data k else b.data (k - m) := by
  refine ⟨_, by simp only [Tensor.cat2, ha, hb]; rfl, by simp [Tensor.ofFn], fun k hk => ?_⟩
  simp only [Tensor.ofFn, Tensor.get, List.set_cons_zero, unravel, size, Nat.mul_one, Nat.div_one, List.getD_cons_zero, ha, hb, ravel]
  simp

theorem cat_params (st : Store ℝ) (is : List Nat) (t : Tensor ℝ) (m : Nat) (ht : t.shape = [m]) :
    ∃ r, (is.map fun i => (⟨[(st.param i).numel], (st.param i).data⟩ : Tensor ℝ)).foldlM (fun r u => cat2 r u 0) t = .ok r ∧
      r.shape = [m + flatLen st is] ∧ ∀ k < m + flatLen st is, r.data k = if k < m then t.data k else flatAt st is (k - m) := by
  induction is generalizing t m with
  | nil =>
    refine ⟨t, rfl, by simpa [flatLen] using ht, fun k hk => ?_⟩
    rw [if_pos (by simpa [flatLen] using hk)]
  | cons i is ih =>
    obtain ⟨u, hu, hus, hud⟩ := cat2_vec1 (b := ⟨[(st.param i).numel], (st.param i).data⟩) ht rfl
    obtain ⟨r, hr, hrs, hrd⟩ := ih u _ hus
    refine ⟨r, ?_, by rw [hrs]; simp only [flatLen]; congr 1; omega, fun k hk => ?_⟩
    · simp only [List.map_cons, List.foldlM_cons, hu]
      exact hr
    · simp only [flatLen] at hk
      rw [hrd k (by omega)]
      simp only [flatAt]
      by_cases h1 : k < m
      · rw [if_pos (by omega), if_pos h1, hud k (by omega), if_pos h1]
      · rw [if_neg h1]
        by_cases h2 : k - m < (st.param i).numel
        · rw [if_pos (by omega), if_pos h2, hud k (by omega), if_neg h1]
        · rw [if_neg (by omega), if_neg h2, Nat.sub_sub]

theorem getWeight_run {m : Mod ℝ} (st : Store ℝ) (hne : m.parameters ≠ []) :
    ∃ r, m.getWeight st = (.ok r, st) ∧ r.shape = [flatLen st m.parameters] ∧
      ∀ k < flatLen st m.parameters, r.data k = flatAt st m.parameters k := by
  obtain ⟨i, is, his⟩ : ∃ i is, m.parameters = i :: is := by
    cases h : m.parameters with
    | nil => exact (hne h).elim
    | cons i is => exact ⟨i, is, rfl⟩
  obtain ⟨r, hr, hrs, hrd⟩ := cat_params st is ⟨[(st.param i).numel], (st.param i).data⟩ _ rfl
  refine ⟨r, ?_, ?_, fun k hk => ?_⟩
  · simp only [Mod.getWeight, his, List.map_cons, Tensor.cat, List.length_cons, List.length_nil]
    rw [if_pos (by omega), hr]
  · rw [hrs, his]; simp only [flatLen]
  · rw [his] at hk ⊢
    rw [hrd k hk]
    simp only [flatAt]

/-! ### set_weight -/

/-- the state after a successful `set_weight` on parameters `is` -/
structure SetTo (v : Tensor ℝ) (is : List Nat) (p : Nat) (st st' : Store ℝ) : Prop where
  fmaps : st'.fmaps = st.fmaps
  pidx : st'.pidx = st.pidx
  hooks : st'.hooks = st.hooks
  shape : ∀ i, (st'.param i).shape = (st.param i).shape
  other : ∀ i, i ∉ is → st'.param i = st.param i
  val : ∀ k < flatLen st is, flatAt st' is k = v.data (p + k)

theorem SetTo.wiring {v : Tensor ℝ} {is : List Nat} {p : Nat} {st st' : Store ℝ} (h : SetTo v is p st st') : Wiring st st' :=
  ⟨h.shape, h.hooks, fun i => by rw [h.fmaps]⟩

theorem SetTo.flatLen {v : Tensor ℝ} {is js : List Nat} {p : Nat} {st st' : Store ℝ} (h : SetTo v is p st st') :
    flatLen st' js = flatLen st js := by
  induction js with
  | nil => rfl
  | cons j js ih => simp only [NNJ.flatLen, Tensor.numel, h.shape, ih]

theorem setWeightLoop_ok (v : Tensor ℝ) (is : List Nat) (hnd : is.Nodup) (p : Nat) (st : Store ℝ) (h : p + flatLen st is ≤ v.numel) :
    ∃ st', setWeightLoop v is p st = (.ok (), st') ∧ SetTo v is p st st' := by
  induction is generalizing p st with
  | nil => exact ⟨st, rfl, rfl, rfl, rfl, fun _ => rfl, fun _ _ => rfl, fun k hk => by simp [flatLen] at hk⟩
  | cons i is ih =>
    simp only [flatLen] at h
    set s1 : Store ℝ := { st with param := fun j => if j = i then ⟨(st.param i).shape, fun k => v.data (p + k)⟩ else st.param j } with hs1
    have hni : i ∉ is := (List.nodup_cons.1 hnd).1
    have hsh : ∀ j, (s1.param j).shape = (st.param j).shape := by
      intro j
      by_cases hj : j = i
      · subst hj; simp [hs1]
      · simp [hs1, hj]
    have hl : flatLen s1 is = flatLen st is := by
      clear ih hnd h hni
      induction is with
      | nil => rfl
      | cons j js ih => simp only [flatLen, Tensor.numel, hsh, ih]
    obtain ⟨st', hr, hS⟩ := ih (List.nodup_cons.1 hnd).2 (p + (st.param i).numel) s1 (by rw [hl]; omega)
    refine ⟨st', ?_, hS.fmaps, hS.pidx, hS.hooks, fun j => (hS.shape j).trans (hsh j), fun j hj => ?_, fun k hk => ?_⟩
    · simp only [setWeightLoop]
      rw [if_pos (by omega)]
      exact hr
    · rw [hS.other j fun hh => hj (by simp [hh])]
      simp only [List.mem_cons, not_or] at hj
      simp [hs1, hj.1]
    · simp only [flatLen] at hk
      have hi : st'.param i = ⟨(st.param i).shape, fun k => v.data (p + k)⟩ := by
        rw [hS.other i hni]; simp [hs1]
      have hn : (st'.param i).numel = (st.param i).numel := by rw [hi]; rfl
      simp only [flatAt, hn]
      by_cases hlt : k < (st.param i).numel
      · rw [if_pos hlt, hi]
      · rw [if_neg hlt, hS.val _ (by rw [hl]; omega)]
        congr 1; omega

/-- too short: raises, after having overwritten the parameters that fit -/
theorem setWeightLoop_short (v : Tensor ℝ) (is : List Nat) (p : Nat) (st : Store ℝ) (h : v.numel < p + flatLen st is)
    (hp : p ≤ v.numel) : ∃ st', setWeightLoop v is p st = (.error .shape, st') := by
  induction is generalizing p st with
  | nil => simp only [flatLen] at h; omega
  | cons i is ih =>
    simp only [flatLen] at h
    simp only [setWeightLoop]
    split
    · rename_i hle
      refine ih _ _ ?_ hle
      refine lt_of_lt_of_eq (b := p + (st.param i).numel + flatLen st is) (by omega) ?_
      congr 1
      clear ih h hp hle
      induction is with
      | nil => rfl
      | cons j js ih =>
        simp only [flatLen, Tensor.numel, ih]
        congr 2
        by_cases hj : j = i
        · subst hj; simp
        · simp [hj]
    · exact ⟨st, rfl⟩

theorem dedupFirst_nodup (l seen : List Nat) (h : l.Nodup) (hd : ∀ i ∈ l, i ∉ seen) : dedupFirst seen l = l := by
  induction l generalizing seen with
  | nil => rfl
  | cons a l ih =>
    have h1 := hd a (by simp)
    simp only [dedupFirst, if_neg h1]
    rw [ih (a :: seen) (List.nodup_cons.1 h).2]
    intro i hi
    simp only [List.mem_cons, not_or]
    exact ⟨fun e => (List.nodup_cons.1 h).1 (e ▸ hi), hd i (by simp [hi])⟩

/-! ### networks -/

mutual
theorem Net.mod_params : {s s' : List Nat} → {n k p : Nat} → (N : Net s n s' k p) → N.mod.params = N.paramIds
  | _, _, _, _, _, .linear _ _ _ _ _ _ _ => by simp only [Net.mod, Net.paramIds, Linear.mod, PureLayer.toMod]
  | _, _, _, _, _, .act _ _ _ _ _ _ => by simp only [Net.mod, Net.paramIds, Activation.toMod, PureLayer.toMod]
  | _, _, _, _, _, .flatten _ _ _ _ _ => by simp only [Net.mod, Net.paramIds]; rfl
  | _, _, _, _, _, .reshape _ _ _ _ _ _ _ _ _ => by simp only [Net.mod, Net.paramIds]; rfl
  | _, _, _, _, _, .l2norm _ _ _ _ _ _ _ => by simp only [Net.mod, Net.paramIds]; rfl
  | _, _, _, _, _, .conv _ _ bId _ => by cases bId <;> simp [Net.mod, Net.paramIds, Conv2d.mod, PureLayer.toMod, ConvDims.cfg]
  | _, _, _, _, _, .upsample _ _ _ _ _ _ _ _ _ => by simp only [Net.mod, Net.paramIds]; rfl
  | _, _, _, _, _, .maxpool _ _ => by simp only [Net.mod, Net.paramIds]; rfl
  | _, _, _, _, _, .seq id c => by simp only [Net.mod, Net.paramIds, Sequential.mod]; exact c.mods_params
  | _, _, _, _, _, .skip id fid ch => by simp only [Net.mod, Net.paramIds, Sequential.mod, SkipConnection.mod]; exact ch.mods_params
theorem Chain.mods_params : {s s' : List Nat} → {n k p l : Nat} → (c : Chain s n s' k p l) → (c.mods.map Mod.params).flatten = c.paramIds
  | _, _, _, _, _, _, .nil _ _ _ _ => by simp only [Chain.mods, Chain.paramIds]; rfl
  | _, _, _, _, _, _, .snoc c m => by simp [Chain.mods, Chain.paramIds, Chain.mods_params c, Net.mod_params m]
end

theorem Net.parameters {s s' : List Nat} {n k p : Nat} (N : Net s n s' k p) (h : N.paramIds.Nodup) : N.mod.parameters = N.paramIds := by
  rw [Mod.parameters, Net.mod_params]
  exact dedupFirst_nodup _ _ h (by simp)

/-- weight and bias one after the other -/
theorem weightBias_flat {wId : Nat} {bId : Option Nat} {P o : Nat} {st : Store ℝ} (hnw : (st.param wId).numel = P)
    (hb : ∀ b ∈ bId, (st.param b).shape = [o]) {F : Fin (biasLen bId o) → ℝ} (hF : ∀ b ∈ bId, ∀ c, F c = (st.param b).data c) :
    flatLen st (wId :: bId.toList) = P + biasLen bId o ∧ ∀ j : Fin (P + biasLen bId o),
      Fin.append (fun c : Fin P => (st.param wId).data c) F j = flatAt st (wId :: bId.toList) j := by
  cases bId with
  | none =>
    simp only [Option.toList, flatLen, biasLen, hnw]
    refine ⟨trivial, fun j => ?_⟩
    simp only [flatAt, hnw]
    have hj : (j : Nat) < P := j.2
    rw [if_pos hj]
    exact Fin.append_left (n := 0) _ _ (⟨j, hj⟩ : Fin P)
  | some b =>
    have hnb : (st.param b).numel = o := by simp [Tensor.numel, hb b rfl, size]
    simp only [Option.toList, flatLen, biasLen, hnw, hnb]
    refine ⟨rfl, fun j => ?_⟩
    simp only [flatAt, hnw, hnb]
    refine Fin.addCases (fun a => ?_) (fun a => ?_) j
    · refine Eq.trans (Fin.append_left _ _ _) ?_
      rw [Fin.val_castAdd, if_pos a.2]
    · refine Eq.trans (Fin.append_right _ _ _) ?_
      have : (a : Nat) < o := a.2
      rw [Fin.val_natAdd, if_neg (by omega), if_pos (by omega)]
      exact (hF b rfl a).trans (congrArg (st.param b).data (by omega))

mutual
theorem Net.w_flat : {s s' : List Nat} → {n k p : Nat} → (N : Net s n s' k p) → (st : Store ℝ) → N.Shapes st →
    flatLen st N.paramIds = p ∧ ∀ i : Fin p, N.w st i = flatAt st N.paramIds i
  | _, _, _, _, _, .linear _ wId bId i o _ _, st, h => by
    simp only [Net.Shapes] at h
    simp only [Net.paramIds, Net.w]
    exact weightBias_flat (wId := wId) (P := o * i) (by simp [Tensor.numel, h.1, size]) h.2 (by rintro b rfl c; rfl)
  | _, _, _, _, _, .act _ _ _ _ _ _, _, _ => by simp only [Net.paramIds]; exact ⟨rfl, fun i => i.elim0⟩
  | _, _, _, _, _, .flatten _ _ _ _ _, _, _ => by simp only [Net.paramIds]; exact ⟨rfl, fun i => i.elim0⟩
  | _, _, _, _, _, .reshape _ _ _ _ _ _ _ _ _, _, _ => by simp only [Net.paramIds]; exact ⟨rfl, fun i => i.elim0⟩
  | _, _, _, _, _, .l2norm _ _ _ _ _ _ _, _, _ => by simp only [Net.paramIds]; exact ⟨rfl, fun i => i.elim0⟩
  | _, _, _, _, _, .conv _ wId bId g, st, h => by
    simp only [Net.Shapes] at h
    simp only [Net.paramIds, Net.w]
    exact weightBias_flat (wId := wId) (P := g.c2 * g.c1 * g.kh * g.kw) (by simp [Tensor.numel, h.1, size, Nat.mul_assoc]) h.2 (by rintro b rfl c; rfl)
  | _, _, _, _, _, .upsample _ _ _ _ _ _ _ _ _, _, _ => by simp only [Net.paramIds]; exact ⟨rfl, fun i => i.elim0⟩
  | _, _, _, _, _, .maxpool _ _, _, _ => by simp only [Net.paramIds]; exact ⟨rfl, fun i => i.elim0⟩
  | _, _, _, _, _, .seq _ c, st, h => by
    simp only [Net.Shapes] at h
    simp only [Net.paramIds, Net.w]
    exact c.w_flat st h
  | _, _, _, _, _, .skip _ _ ch, st, h => by
    simp only [Net.Shapes] at h
    simp only [Net.paramIds, Net.w]
    exact ch.w_flat st h
theorem Chain.w_flat : {s s' : List Nat} → {n k p l : Nat} → (c : Chain s n s' k p l) → (st : Store ℝ) → c.Shapes st →
    flatLen st c.paramIds = p ∧ ∀ i : Fin p, c.w st i = flatAt st c.paramIds i
  | _, _, _, _, _, _, .nil _ _ _ _, _, _ => by simp only [Chain.paramIds]; exact ⟨rfl, fun i => i.elim0⟩
  | _, _, _, _, _, _, .snoc c m, st, h => by
    simp only [Chain.Shapes] at h
    obtain ⟨hc, hcw⟩ := c.w_flat st h.1
    obtain ⟨hm, hmw⟩ := m.w_flat st h.2
    simp only [Chain.paramIds, flatLen_append, hc, hm, Chain.w, flatAt_append]
    refine ⟨trivial, fun j => ?_⟩
    refine Fin.addCases (fun a => ?_) (fun a => ?_) j
    · rw [Fin.append_left, Fin.val_castAdd, if_pos a.2, hcw]
    · rw [Fin.append_right, Fin.val_natAdd, if_neg (by omega), hmw]
      congr 1; omega
end

mutual
theorem Net.Wired.shapes : {s s' : List Nat} → {n k p : Nat} → (N : Net s n s' k p) → (st : Store ℝ) → N.Wired st → N.Shapes st
  | _, _, _, _, _, .linear _ _ _ _ _ _ _, _, h => by simpa only [Net.Wired, Net.Shapes] using h
  | _, _, _, _, _, .act _ _ _ _ _ _, _, _ => by simp only [Net.Shapes]
  | _, _, _, _, _, .flatten _ _ _ _ _, _, _ => by simp only [Net.Shapes]
  | _, _, _, _, _, .reshape _ _ _ _ _ _ _ _ _, _, _ => by simp only [Net.Shapes]
  | _, _, _, _, _, .l2norm _ _ _ _ _ _ _, _, _ => by simp only [Net.Shapes]
  | _, _, _, _, _, .conv _ _ _ _, _, h => by simpa only [Net.Wired, Net.Shapes] using h
  | _, _, _, _, _, .upsample _ _ _ _ _ _ _ _ _, _, _ => by simp only [Net.Shapes]
  | _, _, _, _, _, .maxpool _ _, _, _ => by simp only [Net.Shapes]
  | _, _, _, _, _, .seq id c, st, h => by
    simp only [Net.Wired] at h
    simp only [Net.Shapes]
    exact Chain.Wired.shapes c id st h.2
  | _, _, _, _, _, .skip _ fid ch, st, h => by
    simp only [Net.Wired] at h
    simp only [Net.Shapes]
    exact Chain.Wired.shapes ch fid st h.2.2
theorem Chain.Wired.shapes : {s s' : List Nat} → {n k p l : Nat} → (c : Chain s n s' k p l) → (q : Nat) → (st : Store ℝ) → c.Wired q st → c.Shapes st
  | _, _, _, _, _, _, .nil _ _ _ _, _, _, _ => by simp only [Chain.Shapes]
  | _, _, _, _, _, _, .snoc c m, q, st, h => by
    simp only [Chain.Wired] at h
    simp only [Chain.Shapes]
    exact ⟨Chain.Wired.shapes c q st h.1, Net.Wired.shapes m st h.2.1⟩
end

mutual
/-- a module without parameter elements has no parameter -/
theorem Net.paramIds_nil : {s s' : List Nat} → {n k p : Nat} → (N : Net s n s' k p) → (N.paramIds = [] ↔ p = 0)
  | _, _, _, _, _, .linear _ wId bId i o hi ho => by
    have := Nat.mul_pos ho hi
    simp only [Net.paramIds]
    constructor
    · intro h; simp at h
    · intro h; omega
  | _, _, _, _, _, .act _ _ _ _ _ _ => by simp only [Net.paramIds]
  | _, _, _, _, _, .flatten _ _ _ _ _ => by simp only [Net.paramIds]
  | _, _, _, _, _, .reshape _ _ _ _ _ _ _ _ _ => by simp only [Net.paramIds]
  | _, _, _, _, _, .l2norm _ _ _ _ _ _ _ => by simp only [Net.paramIds]
  | _, _, _, _, _, .conv _ wId bId g => by
    have := Nat.mul_pos (Nat.mul_pos (Nat.mul_pos g.hc2 g.hc1) g.pkh) g.pkw
    simp only [Net.paramIds]
    constructor
    · intro h; simp at h
    · intro h; omega
  | _, _, _, _, _, .upsample _ _ _ _ _ _ _ _ _ => by simp only [Net.paramIds]
  | _, _, _, _, _, .maxpool _ _ => by simp only [Net.paramIds]
  | _, _, _, _, _, .seq _ c => by simp only [Net.paramIds]; exact c.paramIds_nil
  | _, _, _, _, _, .skip _ _ ch => by simp only [Net.paramIds]; exact ch.paramIds_nil
theorem Chain.paramIds_nil : {s s' : List Nat} → {n k p l : Nat} → (c : Chain s n s' k p l) → (c.paramIds = [] ↔ p = 0)
  | _, _, _, _, _, _, .nil _ _ _ _ => by simp only [Chain.paramIds]
  | _, _, _, _, _, _, .snoc c m => by
    simp only [Chain.paramIds, List.append_eq_nil_iff, c.paramIds_nil, m.paramIds_nil]; omega
end

section
variable {s s' : List Nat} {n k p : Nat} {N : Net s n s' k p} {st : Store ℝ}

theorem Net.Ok.len (h : N.Ok st) : flatLen st N.paramIds = p := (N.w_flat st (Net.Wired.shapes N st h.wired)).1
theorem Net.Ok.wAt (h : N.Ok st) (i : Fin p) : N.w st i = flatAt st N.paramIds i := (N.w_flat st (Net.Wired.shapes N st h.wired)).2 i

theorem Net.Ok.of_wiring (h : N.Ok st) {st' : Store ℝ} (hw : Wiring st st') : N.Ok st' :=
  ⟨h.nodup, (N.mdl_wired st').1 (h.g.wired_of hw h.w)⟩

theorem Net.Ok.getWeight (h : N.Ok st) (hp : N.paramIds.Nodup) (h0 : 0 < p) :
    ∃ t, N.mod.getWeight st = (.ok t, st) ∧ IsVec1 t p (N.w st) := by
  have hne : N.mod.parameters ≠ [] := by
    rw [N.parameters hp, ne_eq, N.paramIds_nil]; omega
  obtain ⟨t, ht, hs, hd⟩ := getWeight_run st hne
  rw [N.parameters hp, h.len] at hs hd
  exact ⟨t, ht, hs, fun i => by rw [hd i i.2, h.wAt]⟩

theorem Net.Ok.setWeight (h : N.Ok st) (hp : N.paramIds.Nodup) {v : Tensor ℝ} (hv : p ≤ v.numel) :
    ∃ st', N.mod.setWeight v st = (.ok (), st') ∧ SetTo v N.paramIds 0 st st' ∧ N.Ok st' ∧ ∀ i : Fin p, N.w st' i = v.data i := by
  obtain ⟨st', hr, hS⟩ := setWeightLoop_ok v N.paramIds hp 0 st (by rw [h.len]; omega)
  have hok := h.of_wiring hS.wiring
  refine ⟨st', by rw [Mod.setWeight, N.parameters hp]; exact hr, hS, hok, fun i => ?_⟩
  rw [hok.wAt, hS.val i (by rw [h.len]; exact i.2)]
  simp

end

/-! ### submodules -/

mutual
theorem SubAt.decomp : {s s' t t' : List Nat} → {n k p n' k' p' : Nat} → {N : Net s n s' k p} → {N' : Net t n' t' k' p'} → {off : Nat} →
    SubAt N N' off → ∃ pre post, N'.paramIds = pre ++ N.paramIds ++ post ∧ ∀ st, N'.Shapes st → flatLen st pre = off
  | _, _, _, _, _, _, _, _, _, _, _, _, _, .refl N => ⟨[], [], by simp, fun _ _ => rfl⟩
  | _, _, _, _, _, _, _, _, _, _, _, _, _, .seq id hc => by
    simp only [Net.paramIds, Net.Shapes]
    exact hc.decomp
  | _, _, _, _, _, _, _, _, _, _, _, _, _, .skip id fid hc => by
    simp only [Net.paramIds, Net.Shapes]
    exact hc.decomp
theorem SubAtC.decomp : {s s' t t' : List Nat} → {n k p n' k' p' l : Nat} → {N : Net s n s' k p} → {c : Chain t n' t' k' p' l} → {off : Nat} →
    SubAtC N c off → ∃ pre post, c.paramIds = pre ++ N.paramIds ++ post ∧ ∀ st, c.Shapes st → flatLen st pre = off
  | _, _, _, _, _, _, _, _, _, _, _, _, _, _, .left m hc => by
    obtain ⟨pre, post, h1, h2⟩ := hc.decomp
    simp only [Chain.paramIds, Chain.Shapes]
    exact ⟨pre, post ++ m.paramIds, by simp [h1], fun st hs => h2 st hs.1⟩
  | _, _, _, _, _, _, _, _, _, _, _, _, _, _, .right c hm => by
    obtain ⟨pre, post, h1, h2⟩ := hm.decomp
    simp only [Chain.paramIds, Chain.Shapes]
    exact ⟨c.paramIds ++ pre, post, by simp [h1], fun st hs => by rw [flatLen_append, (c.w_flat st hs.1).1, h2 st hs.2]⟩
end

theorem mem_of_mem_dedupFirst {l seen : List Nat} {i : Nat} (h : i ∈ dedupFirst seen l) : i ∈ l := by
  induction l generalizing seen with
  | nil => simp [dedupFirst] at h
  | cons a l ih =>
    simp only [dedupFirst] at h
    split at h
    · exact List.mem_cons_of_mem _ (ih h)
    · rcases List.mem_cons.1 h with rfl | h
      · simp
      · exact List.mem_cons_of_mem _ (ih h)

/-- parameters with the same shapes and the same concatenation are equal -/
theorem flatAt_ext {st st' : Store ℝ} {is : List Nat} (hsh : ∀ i, (st'.param i).shape = (st.param i).shape)
    (h : ∀ k < flatLen st is, flatAt st' is k = flatAt st is k) : ∀ i ∈ is, TEq (st'.param i) (st.param i) := by
  induction is with
  | nil => simp
  | cons a is ih =>
    have hn : (st'.param a).numel = (st.param a).numel := by simp only [Tensor.numel, hsh]
    intro i hi
    rcases List.mem_cons.1 hi with rfl | hi
    · refine ⟨hsh _, fun k hk => ?_⟩
      have hk' : k < (st.param i).numel := by rw [← hn]; exact hk
      have := h k (by rw [flatLen_cons]; omega)
      rwa [flatAt_cons, flatAt_cons, hn, if_pos hk', if_pos hk'] at this
    · refine ih (fun k hk => ?_) i hi
      have := h ((st.param a).numel + k) (by rw [flatLen_cons]; omega)
      rw [flatAt_cons, flatAt_cons, hn, if_neg (by omega), if_neg (by omega)] at this
      simpa using this

section
variable {s s' : List Nat} {n k p : Nat} {N : Net s n s' k p} {st : Store ℝ}
variable {B : Nat} {X : Fin B → Fin n → ℝ} {x : Tensor ℝ}

theorem Net.Ok.weightMap_run (h : N.Ok st) (hs : N.paramIds.Nodup) (hB : 0 < B) (hx : IsBatch x B s n X) (w : Fin p → ℝ) :
    ∃ t, Returns (do N.mod.setWeight (ofVec w); N.mod.forward x) st t ∧ IsBatch t B s' k fun b => N.sem.f w (X b) := by
  obtain ⟨st', hr, hS, hok, hw⟩ := h.setWeight hs (v := ofVec w) (by simp [Tensor.numel, ofVec, size])
  obtain ⟨t, ht, hT⟩ := hok.forward hB hx
  refine ⟨t, ?_, ?_⟩
  · rw [Returns, Prog.bind_ok hr]; exact ht
  · have : N.w st' = w := by funext i; rw [hw]; simp [ofVec]
    rwa [this] at hT

theorem Net.Ok.weightMap_eq (h : N.Ok st) (hs : N.paramIds.Nodup) (hB : 0 < B) (hx : IsBatch x B s n X) (b : Fin B) :
    weightMap N.mod st x b = fun w => N.sem.f w (X b) := by
  funext w i
  obtain ⟨t, ht, hT⟩ := h.weightMap_run hs hB hx w
  rw [Returns] at ht
  simp only [weightMap, ht]
  exact hT.2 b i
end

end NNJ
