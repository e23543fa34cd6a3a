import Verif.Proofs.Contract

/-! The contract for stateless layers. -/

namespace NNJ
open Tensor Matrix

/-- What a stateless layer must do, for fixed parameter values: `f`, `J`, `JW` are its map and the
matrices of its products.  (The reverse-mode methods, which every layer has.) -/
structure LeafB (L : PureLayer ℝ) (sI : List Nat) (n : Nat) (sO : List Nat) (k p : Nat)
    (f : (Fin n → ℝ) → Fin k → ℝ) (J : (Fin n → ℝ) → Matrix (Fin k) (Fin n) ℝ)
    (JW : (Fin n → ℝ) → Matrix (Fin k) (Fin p) ℝ) : Prop where
  forward : ∀ {B X x}, 0 < B → IsBatch x B sI n X → Ret (L.forward x) fun v => IsBatch v B sO k fun b => f (X b)
  jacI : ∀ {B X x}, 0 < B → IsBatch x B sI n X →
    Ret (L.jacobian x none .input) (IsSome fun t => IsMat t B k n fun b => J (X b))
  jacW : ∀ {B X x}, 0 < B → IsBatch x B sI n X →
    Ret (L.jacobian x none .weight) (OptW p fun t => IsMat t B k p fun b => JW (X b))
  vjpI : ∀ {B X x val u U}, 0 < B → IsBatch x B sI n X → (∀ v ∈ val, IsBatch v B sO k fun b => f (X b)) → IsVec u B k U →
    Ret (L.vjp x val u .input) (IsSome fun t => IsVec t B n fun b => U b ᵥ* J (X b))
  vjpW : ∀ {B X x val u U}, 0 < B → IsBatch x B sI n X → (∀ v ∈ val, IsBatch v B sO k fun b => f (X b)) → IsVec u B k U →
    Ret (L.vjp x val u .weight) (OptW p fun t => IsVec t B p fun b => U b ᵥ* JW (X b))
  mjpI : ∀ {B X x val r A Z}, 0 < B → IsBatch x B sI n X → (∀ v ∈ val, IsBatch v B sO k fun b => f (X b)) → 0 < r →
    IsMat A B r k Z → Ret (L.mjp x val (some A) .input) (IsSome fun t => IsMat t B r n fun b => Z b * J (X b))
  mjpW : ∀ {B X x val r A Z}, 0 < B → IsBatch x B sI n X → (∀ v ∈ val, IsBatch v B sO k fun b => f (X b)) → 0 < r →
    IsMat A B r k Z → Ret (L.mjp x val (some A) .weight) (OptW p fun t => IsMat t B r p fun b => Z b * JW (X b))
  jTI : ∀ {B X x val A Z} (fd td : Bool), 0 < B → IsBatch x B sI n X → (∀ v ∈ val, IsBatch v B sO k fun b => f (X b)) →
    MetricArg fd A B k Z →
    Ret (L.jTmjp x val (some A) .input fd td false)
      (IsSome fun t => MetricOut td t B n fun b => (J (X b))ᵀ * Z b * J (X b))
  jTW : ∀ {B X x val A Z} (fd td : Bool), 0 < B → IsBatch x B sI n X → (∀ v ∈ val, IsBatch v B sO k fun b => f (X b)) →
    MetricArg fd A B k Z →
    Ret (L.jTmjp x val (some A) .weight fd td false)
      (OptW p fun t => MetricOut td t B p fun b => (JW (X b))ᵀ * Z b * JW (X b))
  jT_db : ∀ {x val A wrt}, L.jTmjp x val A wrt true true true = L.jTmjp x val A wrt true true false

/-- The same with the forward-mode methods. -/
structure LeafOk (L : PureLayer ℝ) (sI : List Nat) (n : Nat) (sO : List Nat) (k p : Nat)
    (f : (Fin n → ℝ) → Fin k → ℝ) (J : (Fin n → ℝ) → Matrix (Fin k) (Fin n) ℝ)
    (JW : (Fin n → ℝ) → Matrix (Fin k) (Fin p) ℝ) : Prop extends LeafB L sI n sO k p f J JW where
  jvpI : ∀ {B X x val u U}, 0 < B → IsBatch x B sI n X → (∀ v ∈ val, IsBatch v B sO k fun b => f (X b)) → IsVec u B n U →
    Ret (L.jvp x val u .input) (IsSome fun t => IsVec t B k fun b => J (X b) *ᵥ U b)
  jvpW : ∀ {B X x val u U}, 0 < B → IsBatch x B sI n X → (∀ v ∈ val, IsBatch v B sO k fun b => f (X b)) → IsVec u B p U →
    Ret (L.jvp x val u .weight) (OptW p fun t => IsVec t B k fun b => JW (X b) *ᵥ U b)
  jmpI : ∀ {B X x val r A Z}, 0 < B → IsBatch x B sI n X → (∀ v ∈ val, IsBatch v B sO k fun b => f (X b)) →
    IsMat A B n r Z → Ret (L.jmp x val (some A) .input) (IsSome fun t => IsMat t B k r fun b => J (X b) * Z b)
  jmpW : ∀ {B X x val r A Z}, 0 < B → IsBatch x B sI n X → (∀ v ∈ val, IsBatch v B sO k fun b => f (X b)) →
    IsMat A B p r Z → Ret (L.jmp x val (some A) .weight) (OptW p fun t => IsMat t B k r fun b => JW (X b) * Z b)
  jmjI : ∀ {B X x val A Z} (fd td : Bool), 0 < B → IsBatch x B sI n X → (∀ v ∈ val, IsBatch v B sO k fun b => f (X b)) →
    MetricArg fd A B n Z →
    Ret (L.jmjTp x val (some A) .input fd td false)
      (IsSome fun t => MetricOut td t B k fun b => J (X b) * Z b * (J (X b))ᵀ)
  jmjW : 0 < p → ∀ {B X x val A Z} (fd td : Bool), 0 < B → IsBatch x B sI n X →
    (∀ v ∈ val, IsBatch v B sO k fun b => f (X b)) → MetricArg fd A B p Z →
    Ret (L.jmjTp x val (some A) .weight fd td false)
      (IsSome fun t => MetricOut td t B k fun b => JW (X b) * Z b * (JW (X b))ᵀ)
  jmj_db : ∀ {x val A wrt}, L.jmjTp x val A wrt true true true = L.jmjTp x val A wrt true true false

/-- `diag(Jᵀ diag(d) J) = d (J∘J)` -/
theorem diag_sandwichT {k n : Nat} (J : Matrix (Fin k) (Fin n) ℝ) (d : Fin k → ℝ) :
    diag (Jᵀ * diagonal d * J) = d ᵥ* sq J := by
  funext i
  rw [diag_apply, mul_apply]
  simp only [mul_diagonal, vecMul, dotProduct, sq, transpose_apply]
  exact Finset.sum_congr rfl fun _ _ => by ring

/-- `diag(J diag(d) Jᵀ) = (J∘J) d` -/
theorem diag_sandwich {k n : Nat} (J : Matrix (Fin k) (Fin n) ℝ) (d : Fin n → ℝ) :
    diag (J * diagonal d * Jᵀ) = sq J *ᵥ d := by
  funext i
  rw [diag_apply, mul_apply]
  simp only [mul_diagonal, mulVec, dotProduct, sq, transpose_apply]
  exact Finset.sum_congr rfl fun _ _ => by ring

theorem MetricArg.diag {B n : Nat} {t : Tensor ℝ} {d : Fin B → Fin n → ℝ} (h : IsVec t B n d) :
    MetricArg true t B n fun b => diagonal (d b) := ⟨d, h, fun _ => rfl⟩

/-- A stateless layer as a module with its semantics. -/
def Mdl.leaf (m : Mod ℝ) (sI : List Nat) (n : Nat) (sO : List Nat) (k p : Nat) (S : Sem n k p)
    (wired : Store ℝ → Prop) (w : Store ℝ → Fin p → ℝ) (fwd : Prop := True) : Mdl sI n sO k p where
  m := m
  S := S
  ids := [m.id]
  wired := wired
  w := w
  cache _ _ _ := True
  anyVal := False
  blocks v B Z := IsTensor (fun t => IsMat t B p p Z) v
  arg fd v B Z := IsTensor (fun t => MetricArg fd t B p Z) v
  fwdI := fwd
  fwdW := True
  pushW := fwd

theorem run_pure_some {β : Type} {q : Store ℝ → Res β} {s : Store ℝ} {P : β → Prop} (h : Ret (q s) P) :
    Run (fun s => (q s, s)) s fun r s' => P r ∧ s' = s := by
  obtain ⟨r, hr, hP⟩ := h
  exact ⟨r, s, by simp only [hr], hP, rfl⟩

theorem OptV.ofOption {p : Nat} {P : Tensor ℝ → Prop} {r : Option (Tensor ℝ)} (h : OptW p P r) :
    OptV p (IsTensor P) (PyVal.ofOption r) := by
  unfold OptW at h
  unfold OptV
  split_ifs at h ⊢
  · subst h; rfl
  · cases r with
    | none => exact h.elim
    | some t => exact h

theorem IsTensor.ofOption {P : Tensor ℝ → Prop} {r : Option (Tensor ℝ)} (h : IsSome P r) :
    IsTensor P (PyVal.ofOption r) := by
  cases r with
  | none => exact h.elim
  | some t => exact h

theorem IsTensor.mono {P Q : Tensor ℝ → Prop} {v : PyVal ℝ} (h : IsTensor P v) (i : ∀ t, P t → Q t) : IsTensor Q v := by
  cases v with
  | tensor t => exact i _ h
  | none => exact h
  | list _ => exact h

theorem IsSome.mono {β : Type} {P Q : β → Prop} {v : Option β} (h : IsSome P v) (i : ∀ t, P t → Q t) : IsSome Q v := by
  cases v with
  | some t => exact i _ h
  | none => exact h

theorem OptW.mono {p : Nat} {P Q : Tensor ℝ → Prop} {v : Option (Tensor ℝ)} (h : OptW p P v) (i : ∀ t, P t → Q t) :
    OptW p Q v := by
  unfold OptW at *
  split_ifs at h ⊢
  · exact h
  · exact IsSome.mono h i

section
variable {L : Store ℝ → PureLayer ℝ} {id : Nat} {params : List Nat} {sI sO : List Nat} {n k p : Nat}
  {f : (Fin p → ℝ) → (Fin n → ℝ) → Fin k → ℝ} {J : (Fin p → ℝ) → (Fin n → ℝ) → Matrix (Fin k) (Fin n) ℝ}
  {JW : (Fin p → ℝ) → (Fin n → ℝ) → Matrix (Fin k) (Fin p) ℝ} {smooth : (Fin p → ℝ) → (Fin n → ℝ) → Prop}
  {wired : Store ℝ → Prop} {w : Store ℝ → Fin p → ℝ} {m : Mod ℝ} {fwd : Prop}

/-- a pure call meets `Back` -/
theorem back_of_pure {β : Type} {M : Mdl sI n sO k p} {s : Store ℝ} {B : Nat} {X : Fin B → Fin n → ℝ} {call : Option (Tensor ℝ) → Prog ℝ β}
    {post : β → Prop} (hc : ∀ B X s, M.cache B X s)
    (h : ∀ val, (∀ v ∈ val, M.VOk s X v) → Run (call val) s fun r s' => post r ∧ s' = s) : M.Back s X call post := by
  refine ⟨fun v hv _ => h (some v) (by simpa using hv), (h none (by simp)).mono ?_⟩
  rintro b s' ⟨hb, rfl⟩
  exact ⟨hb, Step.refl, hc _ _ _⟩

theorem backS_of_pure {β : Type} {M : Mdl sI n sO k p} {s : Store ℝ} {B : Nat} {X : Fin B → Fin n → ℝ} {call : Option (Tensor ℝ) → Prog ℝ β}
    {post : β → Prop} (hc : ∀ B X s, M.cache B X s)
    (h : ∀ val, (∀ v ∈ val, M.VOk s X v) → Run (call val) s fun r s' => post r ∧ s' = s) : M.BackS s X call post := by
  refine ⟨fun v hv _ => (h (some v) (by simpa using hv)).mono ?_, (h none (by simp)).mono ?_⟩
  all_goals
    rintro b s' ⟨hb, rfl⟩
    exact ⟨hb, Step.refl, hc _ _ _⟩

theorem fwd_of_pure {β : Type} {M : Mdl sI n sO k p} {s : Store ℝ} {B : Nat} {X : Fin B → Fin n → ℝ} {call : Option (Tensor ℝ) → Prog ℝ β}
    {post : β → Prop} (h : ∀ val, (∀ v ∈ val, M.VOk s X v) → Run (call val) s fun r s' => post r ∧ s' = s) :
    M.Fwd s X call post := by
  refine fun val hv => (h val hv).mono ?_
  rintro b s' ⟨hb, rfl⟩
  exact ⟨hb, Step.refl, fun h => h⟩

theorem good_leafG (hm : m = PureLayer.toMod L id p params) (hn : size sI = n) (hk : size sO = k) (npos : 0 < n) (kpos : 0 < k)
    (hwired : ∀ {s s'}, Wiring s s' → wired s → wired s')
    (hw : ∀ {s s' : Store ℝ}, s'.param = s.param → w s' = w s)
    (h : ∀ s, wired s → LeafB (L s) sI n sO k p (f (w s)) (J (w s)) (JW (w s)))
    (h' : fwd → ∀ s, wired s → LeafOk (L s) sI n sO k p (f (w s)) (J (w s)) (JW (w s))) :
    Good (Mdl.leaf m sI n sO k p (Sem.leaf f J JW smooth) wired w fwd) := by
  subst hm
  have hc : ∀ B X s, (Mdl.leaf (PureLayer.toMod L id p params) sI n sO k p (Sem.leaf f J JW smooth) wired w fwd).cache B X s :=
    fun _ _ _ => trivial
  have hV : ∀ {s B} {X : Fin B → Fin n → ℝ} {val : Option (Tensor ℝ)},
      (∀ v ∈ val, (Mdl.leaf (PureLayer.toMod L id p params) sI n sO k p (Sem.leaf f J JW smooth) wired w fwd).VOk s X v) →
      ∀ v ∈ val, IsBatch v B sO k fun b => f (w s) (X b) :=
    fun hv v hvv => (hv v hvv).resolve_left (fun h => h)
  have hmask : ∀ Z, (Sem.leaf f J JW smooth).mask Z = Z := fun Z => by
    funext i j; simp [Sem.mask, Sem.leaf]
  exact
  { hn := hn, hk := hk, npos := npos, kpos := kpos, nParams := rfl, id_mem := by simp [Mdl.leaf]
    wired_of := hwired, w_of := hw, cache_frame := fun _ _ _ => trivial
    arg_of_metric := fun h => h
    arg_of_blocks := fun {v} => by cases v <;> exact fun h => h
    blocks_ne := @fun v B Z h e => by subst e; exact h
    mask_diag := fun d => hmask _
    forward := @fun s B X x hs hB hx => by
      obtain ⟨r, hr, hP⟩ := (h s hs).forward hB hx
      exact ⟨r, s, by simp only [Mdl.leaf, PureLayer.toMod]; rw [hr], hP, Step.refl, trivial⟩
    jacI := @fun s B X x hs hB hx => by
      obtain ⟨r, hr, hP⟩ := (h s hs).jacI hB hx
      exact ⟨r, s, by simp only [Mdl.leaf, PureLayer.toMod]; rw [hr], hP, Step.refl, trivial⟩
    jacW := @fun s B X x hs hB hx _ => by
      obtain ⟨r, hr, hP⟩ := (h s hs).jacW hB hx
      exact ⟨r, s, by simp only [Mdl.leaf, PureLayer.toMod]; rw [hr], hP, Step.refl, fun _ => trivial⟩
    vjpI := @fun s B X x u U hs hB hx hu => back_of_pure hc fun val hv => run_pure_some ((h s hs).vjpI hB hx (hV hv) hu)
    vjpW := @fun s B X x u U hs hB hx hu => (back_of_pure hc fun val hv => run_pure_some ((h s hs).vjpW hB hx (hV hv) hu)).toW
    mjpI := @fun s B X x r A Z hs hB hx hr hA => back_of_pure hc fun val hv => run_pure_some ((h s hs).mjpI hB hx (hV hv) hr hA)
    mjpW := @fun s B X x r A Z hs hB hx hr hA => (back_of_pure hc fun val hv => run_pure_some ((h s hs).mjpW hB hx (hV hv) hr hA)).toW
    jTI := @fun s B X x A Z fd td hs hB hx hA => back_of_pure hc fun val hv =>
      run_pure_some (((h s hs).jTI fd td hB hx (hV hv) hA).bind fun r hr => Ret.pure (IsTensor.ofOption hr))
    jTIdb := @fun s B X x A d hs hB hx hA => back_of_pure hc fun val hv =>
      run_pure_some (by
        rw [(h s hs).jT_db]
        refine ((h s hs).jTI true true hB hx (hV hv) (MetricArg.diag hA)).bind fun r hr => Ret.pure (IsTensor.ofOption ?_)
        exact IsSome.mono hr fun t ht => IsVec.congr ht fun b i => by rw [diag_sandwichT]; rfl)
    jTWd := @fun s B X x A Z fd hs hB hx hA => back_of_pure hc fun val hv =>
      run_pure_some (((h s hs).jTW fd true hB hx (hV hv) hA).bind fun r hr => Ret.pure (OptV.ofOption hr))
    jTWdb := @fun s B X x A d hs hB hx hA => back_of_pure hc fun val hv =>
      run_pure_some (by
        rw [(h s hs).jT_db]
        refine ((h s hs).jTW true true hB hx (hV hv) (MetricArg.diag hA)).bind fun r hr => Ret.pure (OptV.ofOption ?_)
        exact OptW.mono hr fun t ht => IsVec.congr ht fun b i => by rw [diag_sandwichT]; rfl)
    jTWf := @fun s B X x A Z fd hs hB hx hA => back_of_pure hc fun val hv =>
      run_pure_some (((h s hs).jTW fd false hB hx (hV hv) hA).bind fun r hr => Ret.pure (OptV.ofOption hr))
    jvpI := fun fw => @fun s B X x u U hs hB hx hu => fwd_of_pure fun val hv => run_pure_some ((h' fw s hs).jvpI hB hx (hV hv) hu)
    jvpW := fun fw _ => @fun s B X x u U hs hB hx hu => fwd_of_pure fun val hv => run_pure_some ((h' fw s hs).jvpW hB hx (hV hv) hu)
    jmpI := fun fw => @fun s B X x r A Z hs hB hx hu => fwd_of_pure fun val hv => run_pure_some ((h' fw s hs).jmpI hB hx (hV hv) hu)
    jmpW := fun fw _ => @fun s B X x r A Z hs hB hx hu => fwd_of_pure fun val hv => run_pure_some ((h' fw s hs).jmpW hB hx (hV hv) hu)
    jmjI := fun fw => @fun s B X x A Z fd td hs hB hx hA => backS_of_pure hc fun val hv =>
      run_pure_some ((h' fw s hs).jmjI fd td hB hx (hV hv) hA)
    jmjIdb := fun fw => @fun s B X x A d hs hB hx hA => backS_of_pure hc fun val hv =>
      run_pure_some (by
        have e := (h' fw s hs).jmjI true true hB hx (hV hv) (MetricArg.diag hA)
        rw [← (h' fw s hs).jmj_db] at e
        exact e.mono fun r hr => IsSome.mono hr fun t ht => IsVec.congr ht fun b i => by rw [diag_sandwich]; rfl)
    jmjW := fun fw hp => @fun s B X x v Z fd td hs hB hx hA => backS_of_pure hc fun val hv => by
      cases v with
      | none => exact hA.elim
      | list _ => exact hA.elim
      | tensor A =>
        refine run_pure_some (Ret.mono (P := IsSome _) ((h' fw s hs).jmjW hp fd td hB hx (hV hv) hA) fun r hr => ?_)
        refine IsSome.mono hr fun t ht => ?_
        have e : (Mdl.leaf (PureLayer.toMod L id p params) sI n sO k p (Sem.leaf f J JW smooth) wired w fwd).S.mask = fun Z => Z :=
          funext hmask
        rw [e]; exact ht
    jmjWdb := fun fw hp => @fun s B X x A d hs hB hx hA => backS_of_pure hc fun val hv =>
      run_pure_some (by
        have e := (h' fw s hs).jmjW hp true true hB hx (hV hv) (MetricArg.diag hA)
        rw [← (h' fw s hs).jmj_db] at e
        exact e.mono fun r hr => IsSome.mono hr fun t ht => IsVec.congr ht fun b i => by rw [diag_sandwich]; rfl) }

/-- a layer with all methods -/
theorem good_leaf (hm : m = PureLayer.toMod L id p params) (hn : size sI = n) (hk : size sO = k) (npos : 0 < n) (kpos : 0 < k)
    (hwired : ∀ {s s'}, Wiring s s' → wired s → wired s')
    (hw : ∀ {s s' : Store ℝ}, s'.param = s.param → w s' = w s)
    (h : ∀ s, wired s → LeafOk (L s) sI n sO k p (f (w s)) (J (w s)) (JW (w s))) :
    Good (Mdl.leaf m sI n sO k p (Sem.leaf f J JW smooth) wired w) :=
  good_leafG hm hn hk npos kpos hwired hw (fun s hs => (h s hs).toLeafB) fun _ => h

end

end NNJ
