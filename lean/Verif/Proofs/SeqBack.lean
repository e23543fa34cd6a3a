import Verif.Proofs.SeqFwd

/-! Backward loops of Sequential. -/

namespace NNJ
open Tensor Matrix
namespace MChain

variable {sI sO : List Nat} {n k p l : Nat}

/-- state of a Sequential after a forward pass on `X` -/
structure Env (q : Nat) (c : MChain sI n sO k p l) (B : Nat) (X : Fin B → Fin n → ℝ) (s : Store ℝ) : Prop where
  wired : c.Wired q s
  kids : c.kids B X s
  list : ∃ L, s.fmaps q = some L ∧ listOk L c B X (c.w s)

theorem fmap_of {q i : Nat} {s : Store ℝ} {L : List (Tensor ℝ)} {t : Tensor ℝ} (h : s.fmaps q = some L) (ht : L[i]? = some t) :
    Sequential.fmap q i s = (.ok t, s) := by
  simp only [Sequential.fmap, h, ht]

/-- what the loop body sees at the last layer -/
structure Last {sK : List Nat} {j r : Nat} (q : Nat) (c : MChain sI n sO k p l) (M : Mdl sO k sK j r) (B : Nat) (X : Fin B → Fin n → ℝ)
    (s : Store ℝ) (x v : Tensor ℝ) : Prop where
  env : Env q c B X s
  wired : M.wired s
  cache : M.cache B (c.Y s X) s
  x_eq : Sequential.fmap q l s = (.ok x, s)
  v_eq : Sequential.fmap q (l + 1) s = (.ok v, s)
  x_ok : IsBatch x B sO k (c.Y s X)
  v_ok : M.VOk s (c.Y s X) v

theorem Env.last {sK : List Nat} {j r q B : Nat} {c : MChain sI n sO k p l} {M : Mdl sO k sK j r} {X : Fin B → Fin n → ℝ} {s : Store ℝ}
    (h : Env q (snoc c M) B X s) : ∃ x v, Last q c M B X s x v := by
  obtain ⟨⟨hw, hMw, _⟩, ⟨hk, hc⟩, L, hL, hl, v, hv, hvb⟩ := h
  have hl' : listOk L c B X (c.w s) := by
    have : wl ((snoc c M).w s) = c.w s := wl_append _ _
    rwa [this] at hl
  obtain ⟨x, hx, hxb⟩ := listOk_last hl'
  refine ⟨x, v, ⟨hw, hk, L, hL, hl'⟩, hMw, hc, fmap_of hL hx, fmap_of hL hv, hxb, Or.inr ?_⟩
  exact hvb.congr fun b i => by rw [← Y_snoc]; rfl

theorem child_snoc {sK : List Nat} {j r : Nat} (c : MChain sI n sO k p l) (M : Mdl sO k sK j r) (rest : List (Mod ℝ)) (s : Store ℝ) :
    Sequential.child (c.mods ++ M.m :: rest) l s = (.ok M.m, s) := by
  have : (c.mods ++ M.m :: rest)[l]? = some M.m := by
    have h := c.mods_length
    rw [List.getElem?_append_right (by omega)]
    simp [h]
  simp only [Sequential.child, this]

/-- run the loop body up to the first call on the layer -/
theorem run_body {β : Type} {sK : List Nat} {j r q B : Nat} {c : MChain sI n sO k p l} {M : Mdl sO k sK j r} {X : Fin B → Fin n → ℝ}
    {s : Store ℝ} {x v : Tensor ℝ} (h : Last q c M B X s x v) (rest : List (Mod ℝ)) {f : Mod ℝ → Tensor ℝ → Tensor ℝ → Prog ℝ β}
    {Q : β → Store ℝ → Prop} (hf : Run (f M.m x v) s Q) :
    Run (do
      let m ← Sequential.child (c.mods ++ M.m :: rest) l
      let x ← Sequential.fmap q l
      let v ← Sequential.fmap q (l + 1)
      f m x v) s Q := by
  obtain ⟨b, s', hb, hQ⟩ := hf
  refine ⟨b, s', ?_, hQ⟩
  rw [Prog.bind_ok (child_snoc c M rest s), Prog.bind_ok h.x_eq, Prog.bind_ok h.v_eq, hb]

theorem mods_snoc_append {sK : List Nat} {j r : Nat} (c : MChain sI n sO k p l) (M : Mdl sO k sK j r) (rest : List (Mod ℝ)) :
    (snoc c M).mods ++ rest = c.mods ++ M.m :: rest := by simp [mods]

section loops
variable {q B : Nat} {X : Fin B → Fin n → ℝ} {s : Store ℝ} {c : MChain sI n sO k p l}

theorem vjpInput_loop (hg : c.AllGoodI) (hB : 0 < B) (he : Env q c B X s) (rest : List (Mod ℝ)) {u : Tensor ℝ} {U : Fin B → Fin k → ℝ}
    (hu : IsVec u B k U) :
    Run (Sequential.vjpInput q (c.mods ++ rest) l u) s fun t s' => IsVec t B n (fun b => U b ᵥ* c.J s X b) ∧ s' = s := by
  induction c generalizing rest u with
  | nil => exact Run.pure ⟨hu.congr fun b i => by simp [J, S, Sem.id], rfl⟩
  | snoc c M ih =>
    obtain ⟨x, v, h⟩ := he.last
    rw [mods_snoc_append]
    refine run_body h rest ?_
    refine Run.bindNeed ((hg.2.vjpI h.wired hB h.x_ok hu).1 v h.v_ok h.cache) fun t s' ht hs => ?_
    subst hs
    refine (ih hg.1 h.env (M.m :: rest) ht).mono fun t s'' ⟨ht, hs⟩ => ⟨ht.congr fun b i => ?_, hs⟩
    rw [J_snoc, ← vecMul_vecMul]

theorem vjpWeight_loop (hg : c.AllGood) (hB : 0 < B) (he : Env q c B X s) (rest : List (Mod ℝ)) {u : Tensor ℝ} {U : Fin B → Fin k → ℝ}
    (hu : IsVec u B k U) (acc : List (Tensor ℝ)) :
    Run (Sequential.vjpWeight q (c.mods ++ rest) l u acc) s fun ts s' =>
      (∃ ts', ts = ts' ++ acc ∧ CatV ts' B p fun b => U b ᵥ* c.JW s X b) ∧ s' = s := by
  induction c generalizing rest u acc with
  | nil => exact Run.pure ⟨⟨[], rfl, by simp [CatV]⟩, rfl⟩
  | snoc c M ih =>
    obtain ⟨x, v, h⟩ := he.last
    rw [mods_snoc_append]
    refine run_body h rest ?_
    refine ((hg.2.vjpW h.wired hB h.x_ok hu).1 v h.v_ok h.cache).bind fun t s' ⟨ht, hs⟩ => ?_
    subst hs
    have key : ∀ ts', CatV ts' B _ (fun b => U b ᵥ* (M.J s' (c.Y s' X) b * c.JW s' X b)) →
        CatV (ts' ++ t.toList) B _ fun b => U b ᵥ* (snoc c M).JW s' X b := by
      intro ts' h'
      have := h'.snoc ht
      simpa only [JW_snoc, vecMul_hcat] using this
    cases c with
    | nil =>
      refine Run.pure ⟨⟨[] ++ t.toList, by simp, key [] (by simp [CatV])⟩, rfl⟩
    | @snoc _ _ _ _ _ _ _ l c' M' =>
      simp only [Nat.succ_ne_zero, if_false]
      refine Run.bindNeed ((hg.2.vjpI h.wired hB h.x_ok hu).1 v h.v_ok h.cache) fun t' s' ht' hs => ?_
      subst hs
      refine (ih hg.1 h.env (M.m :: rest) ht' _).mono fun ts s'' ⟨⟨ts', hts, hcat⟩, hs⟩ => ⟨⟨ts' ++ t.toList, by simp [hts], key ts' ?_⟩, hs⟩
      simpa only [vecMul_vecMul] using hcat

theorem mjpInput_loop (hg : c.AllGoodI) (hB : 0 < B) (he : Env q c B X s) (rest : List (Mod ℝ)) {u : Tensor ℝ} {m : Nat} (hm : 0 < m)
    {U : Fin B → Matrix (Fin m) (Fin k) ℝ} (hu : IsMat u B m k U) :
    Run (Sequential.mjpInput q (c.mods ++ rest) l u) s fun t s' => IsMat t B m n (fun b => U b * c.J s X b) ∧ s' = s := by
  induction c generalizing rest u with
  | nil => exact Run.pure ⟨hu.congr fun b i _ => by simp [J, S, Sem.id], rfl⟩
  | snoc c M ih =>
    obtain ⟨x, v, h⟩ := he.last
    rw [mods_snoc_append]
    refine run_body h rest ?_
    refine Run.bindNeed ((hg.2.mjpI h.wired hB h.x_ok hm hu).1 v h.v_ok h.cache) fun t s' ht hs => ?_
    subst hs
    refine (ih hg.1 h.env (M.m :: rest) ht).mono fun t s'' ⟨ht, hs⟩ => ⟨ht.congr fun b i _ => ?_, hs⟩
    rw [J_snoc, ← Matrix.mul_assoc]

theorem mjpWeight_loop (hg : c.AllGood) (hB : 0 < B) (he : Env q c B X s) (rest : List (Mod ℝ)) {u : Tensor ℝ} {m : Nat} (hm : 0 < m)
    {U : Fin B → Matrix (Fin m) (Fin k) ℝ} (hu : IsMat u B m k U) (acc : List (Tensor ℝ)) :
    Run (Sequential.mjpWeight q (c.mods ++ rest) l u acc) s fun ts s' =>
      (∃ ts', ts = ts' ++ acc ∧ CatM ts' B m p fun b => U b * c.JW s X b) ∧ s' = s := by
  induction c generalizing rest u acc with
  | nil => exact Run.pure ⟨⟨[], rfl, by simp [CatM]⟩, rfl⟩
  | snoc c M ih =>
    obtain ⟨x, v, h⟩ := he.last
    rw [mods_snoc_append]
    refine run_body h rest ?_
    refine ((hg.2.mjpW h.wired hB h.x_ok hm hu).1 v h.v_ok h.cache).bind fun t s' ⟨ht, hs⟩ => ?_
    subst hs
    have key : ∀ ts', CatM ts' B m _ (fun b => U b * (M.J s' (c.Y s' X) b * c.JW s' X b)) →
        CatM (ts' ++ t.toList) B m _ fun b => U b * (snoc c M).JW s' X b := by
      intro ts' h'
      have := h'.snoc ht
      simpa only [JW_snoc, mul_hcat] using this
    cases c with
    | nil =>
      refine Run.pure ⟨⟨[] ++ t.toList, by simp, key [] (by simp [CatM])⟩, rfl⟩
    | @snoc _ _ _ _ _ _ _ l c' M' =>
      simp only [Nat.succ_ne_zero, if_false]
      refine Run.bindNeed ((hg.2.mjpI h.wired hB h.x_ok hm hu).1 v h.v_ok h.cache) fun t' s' ht' hs => ?_
      subst hs
      refine (ih hg.1 h.env (M.m :: rest) ht' _).mono fun ts s'' ⟨⟨ts', hts, hcat⟩, hs⟩ => ⟨⟨ts' ++ t.toList, by simp [hts], key ts' ?_⟩, hs⟩
      simpa only [Matrix.mul_assoc] using hcat

/-- `toOption` of a tensor -/
theorem run_toOption {β : Type} {v : PyVal ℝ} {P : Tensor ℝ → Prop} (hv : IsTensor P v) {f : Option (Tensor ℝ) → Prog ℝ β} {Q : β → Store ℝ → Prop}
    (hf : ∀ t, P t → Run (f (some t)) s Q) : Run ((liftM v.toOption : Prog ℝ _) >>= f) s Q := by
  cases v with
  | none => exact hv.elim
  | list _ => exact hv.elim
  | tensor t => exact hf t hv

theorem jTmjpInput_loop {N : Nat} {fd td : Bool} (hg : c.AllGoodI) (hB : 0 < B) (he : Env q c B X s) (rest : List (Mod ℝ)) (hN : l ≤ N)
    {A : Tensor ℝ} {Z : Fin B → Matrix (Fin k) (Fin k) ℝ} (hA : MetricArg (if l = N then fd else false) A B k Z) :
    Run (Sequential.jTmjpInput q N (c.mods ++ rest) fd td false l (some A)) s fun r s' =>
      (if l = 0 then r = some A else IsSome (fun t => MetricOut td t B n fun b => (c.J s X b)ᵀ * Z b * c.J s X b) r) ∧ s' = s := by
  induction c generalizing rest A with
  | nil => exact Run.pure ⟨by simp, rfl⟩
  | @snoc _ _ _ _ _ _ _ l c M ih =>
    obtain ⟨x, v, h⟩ := he.last
    rw [mods_snoc_append]
    refine run_body h rest ?_
    have e : (if l = N - 1 then fd else false) = if l + 1 = N then fd else false := by
      have : l = N - 1 ↔ l + 1 = N := by omega
      simp only [this]
    rw [e]
    refine ((hg.2.jTI _ (if l = 0 then td else false) h.wired hB h.x_ok hA).1 v h.v_ok h.cache).bind fun r s' ⟨hr, hs⟩ => ?_
    subst hs
    refine run_toOption hr fun t ht => ?_
    simp only [Nat.succ_ne_zero, if_false]
    cases c with
    | nil =>
      refine Run.pure ⟨?_, rfl⟩
      simp only [if_true] at ht
      show MetricOut td t B _ _
      simp only [J_snoc]
      simpa [J, S, Sem.id, Y] using ht
    | @snoc _ _ _ _ _ _ _ l c' M' =>
      simp only [Nat.succ_ne_zero, if_false] at ht ih
      have hl : ¬ l + 1 = N := by omega
      refine (ih hg.1 h.env (M.m :: rest) (by omega) (A := t) (Z := fun b => (M.J s' ((snoc c' M').Y s' X) b)ᵀ * Z b * M.J s' ((snoc c' M').Y s' X) b) (by simp only [hl, if_false]; exact ht)).mono fun r s'' ⟨hr, hs⟩ => ⟨?_, hs⟩
      refine IsSome.mono hr fun t ht => ?_
      simp only [J_snoc _ M, transpose_mul]
      simpa only [Matrix.mul_assoc] using ht

theorem jTmjpInput_db {N : Nat} (hg : c.AllGoodI) (hB : 0 < B) (he : Env q c B X s) (rest : List (Mod ℝ))
    {A : Tensor ℝ} {d : Fin B → Fin k → ℝ} (hA : IsVec A B k d) :
    Run (Sequential.jTmjpInput q N (c.mods ++ rest) true true true l (some A)) s fun r s' =>
      IsSome (fun t => IsVec t B n fun b => d b ᵥ* c.Q s X b) r ∧ s' = s := by
  induction c generalizing rest A with
  | nil => exact Run.pure ⟨hA.congr fun b i => by simp [Q, S, Sem.id], rfl⟩
  | @snoc _ _ _ _ _ _ _ l c M ih =>
    obtain ⟨x, v, h⟩ := he.last
    rw [mods_snoc_append]
    refine run_body h rest ?_
    simp only [ite_self]
    refine ((hg.2.jTIdb h.wired hB h.x_ok hA).1 v h.v_ok h.cache).bind fun r s' ⟨hr, hs⟩ => ?_
    subst hs
    refine run_toOption hr fun t ht => ?_
    refine (ih hg.1 h.env (M.m :: rest) ht).mono fun r s'' ⟨hr, hs⟩ => ⟨IsSome.mono hr fun t ht => ht.congr fun b i => ?_, hs⟩
    rw [Q_snoc, ← vecMul_vecMul]

/-- results of `consVal` for diagonal weight products -/
theorem consVal_tensor {r : Nat} {v : PyVal ℝ} {Y : Fin B → Fin r → ℝ} (h : OptV r (IsTensor fun t => IsVec t B r Y) v) (acc : List (PyVal ℝ)) :
    ∃ o : Option (Tensor ℝ), OptW r (fun t => IsVec t B r Y) o ∧ Sequential.consVal v acc = o.toList.map .tensor ++ acc := by
  unfold OptV at h
  unfold OptW
  split_ifs at h ⊢ with hr
  · subst h; exact ⟨none, rfl, rfl⟩
  · cases v with
    | none => exact h.elim
    | list _ => exact h.elim
    | tensor t => exact ⟨some t, h, rfl⟩

theorem diag_hcat_sandwich {m p r : Nat} (A : Matrix (Fin m) (Fin p) ℝ) (C : Matrix (Fin m) (Fin r) ℝ) (Z : Matrix (Fin m) (Fin m) ℝ) :
    diag ((hcat A C)ᵀ * Z * hcat A C) = Fin.append (diag (Aᵀ * Z * A)) (diag (Cᵀ * Z * C)) := by
  funext i
  refine Fin.addCases (fun i => ?_) (fun i => ?_) i <;> simp [mul_apply]

theorem jTmjpWeight_diag {N : Nat} {fd : Bool} (hg : c.AllGood) (hB : 0 < B) (he : Env q c B X s) (rest : List (Mod ℝ)) (hN : l ≤ N)
    {A : Tensor ℝ} {Z : Fin B → Matrix (Fin k) (Fin k) ℝ} (hA : MetricArg (if l = N then fd else false) A B k Z) (acc : List (PyVal ℝ)) :
    Run (Sequential.jTmjpWeight q N (c.mods ++ rest) fd true false l (some A) acc) s fun vs s' =>
      (∃ ts, vs = ts.map .tensor ++ acc ∧ CatV ts B p fun b => diag ((c.JW s X b)ᵀ * Z b * c.JW s X b)) ∧ s' = s := by
  induction c generalizing rest A acc with
  | nil => exact Run.pure ⟨⟨[], rfl, by simp [CatV]⟩, rfl⟩
  | @snoc _ _ _ _ _ _ _ l c M ih =>
    obtain ⟨x, v, h⟩ := he.last
    rw [mods_snoc_append]
    refine run_body h rest ?_
    have e : (if l = N - 1 then fd else false) = if l + 1 = N then fd else false := by
      have : l = N - 1 ↔ l + 1 = N := by omega
      simp only [this]
    rw [e]
    refine ((hg.2.jTWd _ h.wired hB h.x_ok hA).1 v h.v_ok h.cache).bind fun r s' ⟨hr, hs⟩ => ?_
    subst hs
    obtain ⟨o, ho, hcons⟩ := consVal_tensor hr acc
    simp only [hcons]
    have key : ∀ ts', CatV ts' B _ (fun b => diag ((M.J s' (c.Y s' X) b * c.JW s' X b)ᵀ * Z b * (M.J s' (c.Y s' X) b * c.JW s' X b))) →
        CatV (ts' ++ o.toList) B _ fun b => diag (((snoc c M).JW s' X b)ᵀ * Z b * (snoc c M).JW s' X b) := by
      intro ts' h'
      have := h'.snoc ho
      simpa only [JW_snoc, diag_hcat_sandwich] using this
    cases c with
    | nil => exact Run.pure ⟨⟨[] ++ o.toList, by simp, key [] (by simp [CatV])⟩, rfl⟩
    | @snoc _ _ _ _ _ _ _ l c' M' =>
      simp only [Nat.succ_ne_zero, if_false]
      refine ((hg.2.jTI _ false h.wired hB h.x_ok hA).1 v h.v_ok h.cache).bind fun r s' ⟨hr, hs⟩ => ?_
      subst hs
      refine run_toOption hr fun t ht => ?_
      have hl : ¬ l + 1 = N := by omega
      refine (ih hg.1 h.env (M.m :: rest) (by omega) (A := t) (Z := fun b => (M.J s' ((snoc c' M').Y s' X) b)ᵀ * Z b * M.J s' ((snoc c' M').Y s' X) b) (by simp only [hl, if_false]; exact ht) _).mono
        fun vs s'' ⟨⟨ts', hts, hcat⟩, hs⟩ => ⟨⟨ts' ++ o.toList, by simp [hts], key ts' ?_⟩, hs⟩
      simpa only [transpose_mul, Matrix.mul_assoc] using hcat

theorem jTmjpWeight_db {N : Nat} (hg : c.AllGood) (hB : 0 < B) (he : Env q c B X s) (rest : List (Mod ℝ))
    {A : Tensor ℝ} {d : Fin B → Fin k → ℝ} (hA : IsVec A B k d) (acc : List (PyVal ℝ)) :
    Run (Sequential.jTmjpWeight q N (c.mods ++ rest) true true true l (some A) acc) s fun vs s' =>
      (∃ ts, vs = ts.map .tensor ++ acc ∧ CatV ts B p fun b => d b ᵥ* c.QW s X b) ∧ s' = s := by
  induction c generalizing rest A acc with
  | nil => exact Run.pure ⟨⟨[], rfl, by simp [CatV]⟩, rfl⟩
  | @snoc _ _ _ _ _ _ _ l c M ih =>
    obtain ⟨x, v, h⟩ := he.last
    rw [mods_snoc_append]
    refine run_body h rest ?_
    simp only [ite_self]
    refine ((hg.2.jTWdb h.wired hB h.x_ok hA).1 v h.v_ok h.cache).bind fun r s' ⟨hr, hs⟩ => ?_
    subst hs
    obtain ⟨o, ho, hcons⟩ := consVal_tensor hr acc
    simp only [hcons]
    have key : ∀ ts', CatV ts' B _ (fun b => d b ᵥ* (M.Q s' (c.Y s' X) b * c.QW s' X b)) →
        CatV (ts' ++ o.toList) B _ fun b => d b ᵥ* (snoc c M).QW s' X b := by
      intro ts' h'
      have := h'.snoc ho
      simpa only [QW_snoc, vecMul_hcat] using this
    cases c with
    | nil => exact Run.pure ⟨⟨[] ++ o.toList, by simp, key [] (by simp [CatV])⟩, rfl⟩
    | @snoc _ _ _ _ _ _ _ l c' M' =>
      simp only [Nat.succ_ne_zero, if_false]
      refine ((hg.2.jTIdb h.wired hB h.x_ok hA).1 v h.v_ok h.cache).bind fun r s' ⟨hr, hs⟩ => ?_
      subst hs
      refine run_toOption hr fun t ht => ?_
      refine (ih hg.1 h.env (M.m :: rest) ht _).mono fun vs s'' ⟨⟨ts', hts, hcat⟩, hs⟩ => ⟨⟨ts' ++ o.toList, by simp [hts], key ts' ?_⟩, hs⟩
      simpa only [vecMul_vecMul] using hcat

theorem ulB_sandwich {m p r : Nat} (A : Matrix (Fin m) (Fin p) ℝ) (C : Matrix (Fin m) (Fin r) ℝ) (Z : Matrix (Fin m) (Fin m) ℝ) :
    ulB ((hcat A C)ᵀ * Z * hcat A C) = Aᵀ * Z * A := by
  ext i j; simp [ulB, mul_apply]
theorem lrB_sandwich {m p r : Nat} (A : Matrix (Fin m) (Fin p) ℝ) (C : Matrix (Fin m) (Fin r) ℝ) (Z : Matrix (Fin m) (Fin m) ℝ) :
    lrB ((hcat A C)ᵀ * Z * hcat A C) = Cᵀ * Z * C := by
  ext i j; simp [lrB, mul_apply]

theorem jTmjpWeight_full {N : Nat} {fd : Bool} (hg : c.AllGood) (hB : 0 < B) (he : Env q c B X s) (rest : List (Mod ℝ)) (hN : l ≤ N)
    {A : Tensor ℝ} {Z : Fin B → Matrix (Fin k) (Fin k) ℝ} (hA : MetricArg (if l = N then fd else false) A B k Z) (acc : List (PyVal ℝ)) :
    Run (Sequential.jTmjpWeight q N (c.mods ++ rest) fd false false l (some A) acc) s fun vs s' =>
      (∃ vs', vs = vs' ++ acc ∧ c.blocks vs' B fun b => (c.JW s X b)ᵀ * Z b * c.JW s X b) ∧ s' = s := by
  induction c generalizing rest A acc with
  | nil => exact Run.pure ⟨⟨[], rfl, rfl⟩, rfl⟩
  | @snoc _ _ _ _ _ _ r l c M ih =>
    obtain ⟨x, v, h⟩ := he.last
    rw [mods_snoc_append]
    refine run_body h rest ?_
    have e : (if l = N - 1 then fd else false) = if l + 1 = N then fd else false := by
      have : l = N - 1 ↔ l + 1 = N := by omega
      simp only [this]
    rw [e]
    refine ((hg.2.jTWf _ h.wired hB h.x_ok hA).1 v h.v_ok h.cache).bind fun w s' ⟨hr, hs⟩ => ?_
    subst hs
    have hcons : ∃ o : List (PyVal ℝ), Sequential.consVal w acc = o ++ acc ∧ ∀ vs',
        c.blocks vs' B (fun b => (M.J s' (c.Y s' X) b * c.JW s' X b)ᵀ * Z b * (M.J s' (c.Y s' X) b * c.JW s' X b)) →
        (snoc c M).blocks (vs' ++ o) B fun b => ((snoc c M).JW s' X b)ᵀ * Z b * (snoc c M).JW s' X b := by
      simp only [blocks, JW_snoc, ulB_sandwich, lrB_sandwich]
      unfold OptV at hr
      split_ifs at hr ⊢ with h0
      · subst hr; exact ⟨[], rfl, fun vs' h => by simpa using h⟩
      · refine ⟨[w], ?_, fun vs' h => ⟨vs', w, rfl, h, hr⟩⟩
        cases w with
        | none => exact absurd rfl (hg.2.blocks_ne hr)
        | list _ => rfl
        | tensor _ => rfl
    obtain ⟨o, hcons, key⟩ := hcons
    simp only [hcons]
    cases c with
    | nil => exact Run.pure ⟨⟨[] ++ o, by simp, key [] rfl⟩, rfl⟩
    | @snoc _ _ _ _ _ _ _ l c' M' =>
      simp only [Nat.succ_ne_zero, if_false]
      refine ((hg.2.jTI _ false h.wired hB h.x_ok hA).1 v h.v_ok h.cache).bind fun r s' ⟨hr, hs⟩ => ?_
      subst hs
      refine run_toOption hr fun t ht => ?_
      have hl : ¬ l + 1 = N := by omega
      refine (ih hg.1 h.env (M.m :: rest) (by omega) (A := t) (Z := fun b => (M.J s' ((snoc c' M').Y s' X) b)ᵀ * Z b * M.J s' ((snoc c' M').Y s' X) b) (by simp only [hl, if_false]; exact ht) _).mono
        fun vs s'' ⟨⟨ts', hts, hcat⟩, hs⟩ => ⟨⟨ts' ++ o, by simp [hts], key ts' ?_⟩, hs⟩
      simpa only [transpose_mul, Matrix.mul_assoc] using hcat

end loops
end MChain
end NNJ
