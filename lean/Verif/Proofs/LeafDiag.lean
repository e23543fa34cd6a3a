import Verif.Proofs.Leaf
import Verif.Proofs.AbstractLayers
import Verif.Spec.Net

/-! Elementwise layers, Flatten and Reshape meet the contract. -/

namespace NNJ
open Tensor Matrix

theorem optW_zero {P : Tensor ℝ → Prop} : Ret (.ok none : Res (Option (Tensor ℝ))) (OptW 0 P) := Ret.ok (by simp [OptW])

theorem IsBatch.numel {t : Tensor ℝ} {B n : Nat} {s : List Nat} {X : Fin B → Fin n → ℝ} (h : IsBatch t B s n X)
    (hs : size s = n) : t.numel = B * n := by simp [Tensor.numel, h.1, hs]

theorem IsBatch.dim0 {t : Tensor ℝ} {B n : Nat} {s : List Nat} {X : Fin B → Fin n → ℝ} (h : IsBatch t B s n X) :
    t.dim 0 = .ok B := by simp [Tensor.dim, h.1]

/-- `x.reshape(b, -1)` -/
theorem reshapeInfer_batch {t : Tensor ℝ} {B n : Nat} {s : List Nat} {X : Fin B → Fin n → ℝ} (h : IsBatch t B s n X)
    (hs : size s = n) (hB : 0 < B) : Ret (t.reshapeInfer [B] []) fun r => IsVec r B n X := by
  have e : B * size s / B = n := by rw [hs, Nat.mul_div_cancel_left _ hB]
  simp only [reshapeInfer, size_cons, size_nil, mul_one, numel, h.1, Nat.mul_mod_right, if_true,
    Nat.ne_of_gt hB, if_false, e]
  exact Ret.ok (isVec_iff_batch.2 ⟨rfl, h.2⟩)

theorem vecMul_diag {n : Nat} (u d : Fin n → ℝ) (i : Fin n) : (u ᵥ* diagonal d) i = u i * d i := by
  simp [vecMul_diagonal]

/-- `if val is None: val = self.forward(x)` -/
theorem val_cases {sI sO : List Nat} {n k : Nat} {fwd : Tensor ℝ → Res (Tensor ℝ)} {f : (Fin n → ℝ) → Fin k → ℝ}
    (hf : ∀ {B X x}, 0 < B → IsBatch x B sI n X → Ret (fwd x) fun v => IsBatch v B sO k fun b => f (X b))
    {B : Nat} {X : Fin B → Fin n → ℝ} {x : Tensor ℝ} {val : Option (Tensor ℝ)} (hB : 0 < B) (hx : IsBatch x B sI n X)
    (hv : ∀ v ∈ val, IsBatch v B sO k fun b => f (X b)) :
    ∃ v, ((val = some v ∧ True) ∨ (val = none ∧ fwd x = .ok v)) ∧ IsBatch v B sO k fun b => f (X b) := by
  cases val with
  | none =>
    obtain ⟨v, h1, h2⟩ := hf hB hx
    exact ⟨v, Or.inr ⟨rfl, h1⟩, h2⟩
  | some v => exact ⟨v, Or.inl ⟨rfl, trivial⟩, hv v rfl⟩

/-- A layer with a diagonal Jacobian. -/
theorem leafOk_diagonal {sI sO : List Nat} {n : Nat} {fwd : Tensor ℝ → Res (Tensor ℝ)} {jac : AbstractDiagonal.Jac ℝ}
    {f D : (Fin n → ℝ) → Fin n → ℝ}
    (hf : ∀ {B X x}, 0 < B → IsBatch x B sI n X → Ret (fwd x) fun v => IsBatch v B sO n fun b => f (X b))
    (hj : ∀ {B X x val}, 0 < B → IsBatch x B sI n X → (∀ v ∈ val, IsBatch v B sO n fun b => f (X b)) →
      Ret (jac x val .input true) (IsSome fun t => IsVec t B n fun b => D (X b)))
    (hj' : ∀ {B X x val}, 0 < B → IsBatch x B sI n X → (∀ v ∈ val, IsBatch v B sO n fun b => f (X b)) →
      Ret (jac x val .input false) (IsSome fun t => IsMat t B n n fun b => diagonal (D (X b))))
    (hw : ∀ x val b, jac x val .weight b = .ok none) :
    LeafOk (AbstractDiagonal.defaults fwd jac) sI n sO n 0 f (fun x => diagonal (D x)) (fun _ => 0) := by
  refine {
    forward := hf, jacI := fun hB hx => hj' hB hx (by simp), jacW := fun hB hx => ?_
    vjpI := fun hB hx hv hu => ?_, vjpW := fun hB hx hv hu => ?_, mjpI := fun hB hx hv hr hA => ?_
    mjpW := fun hB hx hv hr hA => ?_, jTI := fun fd td hB hx hv hA => ?_, jTW := fun fd td hB hx hv hA => ?_
    jT_db := rfl, jvpI := fun hB hx hv hu => ?_, jvpW := fun hB hx hv hu => ?_, jmpI := fun hB hx hv hA => ?_
    jmpW := fun hB hx hv hA => ?_, jmjI := fun fd td hB hx hv hA => ?_
    jmjW := fun h => absurd h (lt_irrefl 0), jmj_db := rfl }
  · simp only [AbstractDiagonal.defaults, hw]; exact optW_zero
  · obtain ⟨d, hd, hD⟩ := (hj hB hx hv).exists_some
    simp only [AbstractDiagonal.defaults, AbstractDiagonal.vjp, hd, Res.bind_ok]
    exact ((ein_bi_bi hu hD).mono fun r hr => hr.congr fun b i => by rw [vecMul_diag]).some
  · simp only [AbstractDiagonal.defaults, AbstractDiagonal.vjp, hw, Res.bind_ok]; exact optW_zero
  · obtain ⟨d, hd, hD⟩ := (hj hB hx hv).exists_some
    simp only [AbstractDiagonal.defaults, AbstractDiagonal.mjp, hd, Res.bind_ok]
    exact (ein_bij_bj_bij' hA hD).some
  · simp only [AbstractDiagonal.defaults, AbstractDiagonal.mjp, hw, Res.bind_ok]; exact optW_zero
  · obtain ⟨v, ⟨rfl, h1⟩ | ⟨rfl, h1⟩, hv'⟩ := val_cases hf hB hx hv <;>
    · obtain ⟨d, hd, hD⟩ := (hj (val := some v) hB hx (by simpa using hv')).exists_some
      simp only [AbstractDiagonal.defaults, AbstractDiagonal.jTmjp, hx.dim0, h1, Res.pure_eq, Res.bind_ok, hd, diagonal_transpose]
      exact AbstractDiagonal.sandwich_spec hD hA
  · obtain ⟨v, ⟨rfl, h1⟩ | ⟨rfl, h1⟩, hv'⟩ := val_cases hf hB hx hv <;>
    · simp only [AbstractDiagonal.defaults, AbstractDiagonal.jTmjp, hx.dim0, h1, Res.pure_eq, Res.bind_ok, hw]
      exact optW_zero
  · obtain ⟨d, hd, hD⟩ := (hj hB hx hv).exists_some
    simp only [AbstractDiagonal.defaults, AbstractDiagonal.jvp, hd, Res.bind_ok]
    exact (ein_bj_bj hD hu).some
  · simp only [AbstractDiagonal.defaults, AbstractDiagonal.jvp, hw, Res.bind_ok]; exact optW_zero
  · obtain ⟨d, hd, hD⟩ := (hj hB hx hv).exists_some
    simp only [AbstractDiagonal.defaults, AbstractDiagonal.jmp, hd, Res.bind_ok, hA.1]
    exact (ein_bi_bij_bij hD hA).some
  · simp only [AbstractDiagonal.defaults, AbstractDiagonal.jmp, hw, Res.bind_ok]; exact optW_zero
  · obtain ⟨v, ⟨rfl, h1⟩ | ⟨rfl, h1⟩, hv'⟩ := val_cases hf hB hx hv <;>
    · obtain ⟨d, hd, hD⟩ := (hj (val := some v) hB hx (by simpa using hv')).exists_some
      simp only [AbstractDiagonal.defaults, AbstractDiagonal.jmjTp, hx.dim0, h1, Res.pure_eq, Res.bind_ok, hd, diagonal_transpose]
      exact AbstractDiagonal.sandwich_spec hD hA

theorem IsBatch.map {t : Tensor ℝ} {B n : Nat} {s : List Nat} {X : Fin B → Fin n → ℝ} (g : ℝ → ℝ) (h : IsBatch t B s n X) :
    IsBatch (t.map g) B s n fun b i => g (X b i) := ⟨h.1, fun b i => by simp [Tensor.map, h.2]⟩

/-- An elementwise layer `g` whose Jacobian diagonal is computed elementwise as `d`. -/
theorem leafOk_elementwise {s : List Nat} {n : Nat} {g d : ℝ → ℝ} {diagOf : Tensor ℝ → Tensor ℝ → Tensor ℝ} (hs : size s = n)
    (hd : ∀ {B X x v}, IsBatch x B s n X → IsBatch v B s n (fun b i => g (X b i)) →
      IsBatch (diagOf x v) B s n fun b i => d (X b i)) :
    LeafOk (Activation.layer g diagOf) s n s n 0 (fun x i => g (x i)) (fun x => diagonal fun i => d (x i)) (fun _ => 0) := by
  have hf : ∀ {B X x}, 0 < B → IsBatch x B s n X →
      Ret (.ok (x.map g) : Res (Tensor ℝ)) fun v => IsBatch v B s n fun b i => g (X b i) := fun _ hx => Ret.ok (hx.map g)
  refine leafOk_diagonal hf ?_ ?_ (fun _ _ _ => rfl)
  · intro B X x val hB hx hv
    obtain ⟨v, ⟨rfl, h1⟩ | ⟨rfl, h1⟩, hv'⟩ := val_cases (f := fun x i => g (x i)) hf hB hx hv
    · exact Ret.sok (b := v) rfl (Ret.sok hv'.dim0 ((reshapeInfer_batch (hd hx hv') hs hB).bind fun r hr => Ret.ok hr))
    · exact Ret.sok h1 (Ret.sok hv'.dim0 ((reshapeInfer_batch (hd hx hv') hs hB).bind fun r hr => Ret.ok hr))
  · intro B X x val hB hx hv
    obtain ⟨v, ⟨rfl, h1⟩ | ⟨rfl, h1⟩, hv'⟩ := val_cases (f := fun x i => g (x i)) hf hB hx hv
    · exact Ret.sok (b := v) rfl (Ret.sok hv'.dim0 ((reshapeInfer_batch (hd hx hv') hs hB).bind fun r hr => (diagEmbed_vec hr).some))
    · exact Ret.sok h1 (Ret.sok hv'.dim0 ((reshapeInfer_batch (hd hx hv') hs hB).bind fun r hr => (diagEmbed_vec hr).some))

theorem leafOk_act (a : Act) {s : List Nat} {n : Nat} (hs : size s = n) :
    LeafOk a.layer s n s n 0 (fun x i => a.fn (x i)) (fun x => diagonal fun i => a.deriv (x i)) (fun _ => 0) := by
  cases a with
  | relu =>
    have e : ∀ a : ℝ, Act.relu.fn a = Activation.reluF a := fun a => by
      simp only [Act.fn, Activation.reluF]
      split_ifs with h
      · exact max_eq_right h.le
      · exact max_eq_left (not_lt.1 h)
    simp only [e]
    refine leafOk_elementwise (d := Act.relu.deriv) hs fun hx hv => (hv.map _).congr fun b i => ?_
    simp only [← e, Act.fn, Act.deriv, lt_max_iff, lt_irrefl, or_false]
  | sigmoid =>
    exact leafOk_elementwise (g := Act.sigmoid.fn) (d := Act.sigmoid.deriv) hs fun hx hv => (hv.map _).congr fun b i => rfl
  | tanh => exact leafOk_elementwise (g := Act.tanh.fn) (d := Act.tanh.deriv) hs fun hx hv => (hv.map _).congr fun b i => rfl
  | sinusoidal =>
    exact leafOk_elementwise (g := Act.sinusoidal.fn) (d := Act.sinusoidal.deriv) hs fun hx hv => (hx.map _).congr fun b i => rfl
  | softplus β t =>
    exact leafOk_elementwise (g := (Act.softplus β t).fn) (d := (Act.softplus β t).deriv) hs fun hx hv => (hx.map _).congr fun b i => rfl
  | custom f g =>
    refine leafOk_elementwise (g := f) (d := (Act.custom f g).deriv) hs fun hx hv => ⟨hv.1, fun b i => ?_⟩
    show g _ _ = g _ _
    rw [hx.2, hv.2]
  | truncExp =>
    refine leafOk_elementwise (g := Act.truncExp.fn) (d := Act.truncExp.deriv) hs fun hx hv => (hx.map _).congr fun b i => ?_
    simp only [Activation.clamp15, Act.deriv, Nat.cast_ofNat]
    congr 1
    split_ifs with h1 h2
    · rw [min_eq_right (by linarith), max_eq_left h1.le]
    · rw [min_eq_left h2.le, max_eq_right (by norm_num)]
    · rw [min_eq_right (not_lt.1 h2), max_eq_right (not_lt.1 h1)]

/-! ### Flatten, Reshape -/

theorem resh_sandwich {B n : Nat} {A : Tensor ℝ} {M : Fin B → Matrix (Fin n) (Fin n) ℝ} {fd td : Bool}
    (hA : MetricArg fd A B n M) : Ret (Resh.sandwich A fd td) (IsSome fun r => MetricOut td r B n M) := by
  cases fd <;> cases td
  · exact Ret.ok hA
  · exact (ein_bii hA).some
  · obtain ⟨d, hd, hM⟩ := hA
    exact ((diagEmbed_vec hd).mono fun r hr => hr.congr fun b i j => by rw [hM]).some
  · obtain ⟨d, hd, hM⟩ := hA
    exact Ret.ok (hd.congr fun b i => by rw [hM]; simp)

theorem isBatch_onesLike {x : Tensor ℝ} {B n : Nat} {s : List Nat} {X : Fin B → Fin n → ℝ} (hx : IsBatch x B s n X) :
    IsBatch (onesLike x) B s n fun _ _ => 1 := ⟨hx.1, fun _ _ => rfl⟩

theorem leafOk_resh {sI sO : List Nat} {n : Nat} {fwd : Tensor ℝ → Res (Tensor ℝ)} (hn : size sI = n)
    (hf : ∀ {B X x}, 0 < B → IsBatch x B sI n X → Ret (fwd x) fun v => IsBatch v B sO n X) :
    LeafOk (Resh.layer fwd) sI n sO n 0 (fun x => x) (fun _ => 1) (fun _ => 0) := by
  refine {
    forward := hf, jacI := fun hB hx => ?_, jacW := fun hB hx => optW_zero
    vjpI := fun hB hx hv hu => Ret.ok (by simpa [IsSome] using hu), vjpW := fun hB hx hv hu => optW_zero
    mjpI := fun hB hx hv hr hA => Ret.ok (by simpa [IsSome] using hA)
    mjpW := fun hB hx hv hr hA => optW_zero, jTI := fun fd td hB hx hv hA => ?_, jTW := fun fd td hB hx hv hA => ?_
    jT_db := rfl, jvpI := fun hB hx hv hu => Ret.ok (by simpa [IsSome] using hu), jvpW := fun hB hx hv hu => optW_zero
    jmpI := fun hB hx hv hA => Ret.ok (by simpa [IsSome] using hA)
    jmpW := fun hB hx hv hA => optW_zero, jmjI := fun fd td hB hx hv hA => ?_
    jmjW := fun h => absurd h (lt_irrefl 0), jmj_db := rfl }
  · refine Ret.sok hx.dim0 ?_
    refine (reshapeInfer_batch (isBatch_onesLike hx) hn hB).bind fun d hd => ?_
    exact ((diagEmbed_vec hd).mono fun r hr => hr.congr fun b i j => by simp [diagonal, one_apply]).some
  · simp only [transpose_one, one_mul, mul_one]
    obtain ⟨v, ⟨rfl, h1⟩ | ⟨rfl, h1⟩, hv'⟩ := val_cases (f := fun x => x) hf hB hx hv
    · exact resh_sandwich hA
    · exact Ret.sok h1 (resh_sandwich hA)
  · obtain ⟨v, ⟨rfl, h1⟩ | ⟨rfl, h1⟩, hv'⟩ := val_cases (f := fun x => x) hf hB hx hv
    · exact optW_zero
    · exact Ret.sok h1 optW_zero
  · simp only [transpose_one, one_mul, mul_one]
    exact resh_sandwich hA

theorem leafOk_flatten {s : List Nat} {n : Nat} (hn : size s = n) :
    LeafOk (Resh.layer Resh.flattenForward) s n [n] n 0 (fun x => x) (fun _ => 1) (fun _ => 0) :=
  leafOk_resh hn fun hB hx => Ret.sok hx.dim0
    ((reshapeInfer_batch hx hn hB).mono fun _ hr => isVec_iff_batch.1 hr)

theorem takeWhile_nat (l : List Nat) (r : List Int) :
    (l.map (Nat.cast : Nat → Int) ++ r).takeWhile (fun d => decide (0 ≤ d)) = l.map (↑) ++ r.takeWhile (fun d => decide (0 ≤ d)) :=
  List.takeWhile_append_of_pos (by simp)

theorem dropWhile_nat (l : List Nat) (r : List Int) :
    (l.map (Nat.cast : Nat → Int) ++ r).dropWhile (fun d => decide (0 ≤ d)) = r.dropWhile (fun d => decide (0 ≤ d)) :=
  List.dropWhile_append_of_pos (by simp)

theorem toNat_cast (l : List Nat) : (l.map (Nat.cast : Nat → Int)).map Int.toNat = l := by
  simp [Function.comp_def]

theorem reshapeOpen_nat (t : Tensor ℝ) (l : List Nat) : t.reshapeOpen (l.map (↑)) = t.reshape l := by
  have h1 := takeWhile_nat l []
  have h2 := dropWhile_nat l []
  simp only [List.append_nil, List.takeWhile_nil, List.dropWhile_nil] at h1 h2
  simp only [reshapeOpen, h1, h2, toNat_cast]

theorem reshapeOpen_infer (t : Tensor ℝ) (l r : List Nat) : t.reshapeOpen (l.map (↑) ++ -1 :: r.map (↑)) = t.reshapeInfer l r := by
  have h1 := takeWhile_nat l (-1 :: r.map (↑))
  have h2 := dropWhile_nat l (-1 :: r.map (↑))
  have e1 : (-1 :: r.map (Nat.cast : Nat → Int)).takeWhile (fun d => decide (0 ≤ d)) = [] := by simp
  have e2 : (-1 :: r.map (Nat.cast : Nat → Int)).dropWhile (fun d => decide (0 ≤ d)) = -1 :: r.map (↑) := by simp
  rw [e1, List.append_nil] at h1
  rw [e2] at h2
  simp only [reshapeOpen, h1, h2, toNat_cast]
  exact if_pos (by simp)

theorem leafOk_reshape {s dims : List Nat} {n : Nat} {z : List Int} (hn : size s = n) (hd : size dims = n) (h0 : 0 < n)
    (hz : OpenShape z dims) :
    LeafOk (Resh.layer (Resh.reshapeForward z)) s n dims n 0 (fun x => x) (fun _ => 1) (fun _ => 0) :=
  leafOk_resh hn fun {B} _ {x} hB hx => Ret.sok hx.dim0 (by
    obtain rfl | ⟨pre, a, post, rfl, rfl⟩ := hz
    · rw [← List.map_cons (f := (Nat.cast : Nat → Int)), reshapeOpen_nat]
      simp only [Tensor.reshape, size_cons, hd, hx.numel hn, if_true]
      exact Ret.ok ⟨rfl, hx.2⟩
    · rw [← List.cons_append, ← List.map_cons (f := (Nat.cast : Nat → Int)), reshapeOpen_infer]
      have e : size (pre ++ a :: post) = size pre * size post * a := by
        rw [size_append, size_cons]; ring
      have hp : 0 < size pre * size post := Nat.pos_of_ne_zero fun h => by rw [e, h, zero_mul] at hd; omega
      have hk : size (B :: pre) * size post = B * (size pre * size post) := by rw [size_cons]; ring
      have hN : x.numel = B * (size pre * size post) * a := by rw [hx.numel hn, ← hd, e]; ring
      have hp' : 0 < B * (size pre * size post) := Nat.mul_pos hB hp
      simp only [reshapeInfer, hk, hN, Nat.ne_of_gt hp', if_false, Nat.mul_mod_right, if_true, Nat.mul_div_cancel_left _ hp']
      exact Ret.ok ⟨rfl, hx.2⟩)

end NNJ
