import Verif.Proofs.LeafPool
import Verif.Proofs.Leaf

/-! MaxPool2d meets the contract. -/

namespace NNJ
open Tensor Matrix
namespace MaxPool2d
variable {a : Torch.PoolArgs} {c h w h2 w2 : Nat} {id : Nat}

/-- MaxPool2d with its semantics -/
noncomputable def poolMdl (a : Torch.PoolArgs) (c h w h2 w2 : Nat) (id : Nat) : Mdl [c, h, w] (c * h * w) [c, h2, w2] (c * h2 * w2) 0 where
  m := MaxPool2d.mod a id
  S := poolSem a c h w h2 w2
  ids := [id]
  wired _ := True
  w _ _ := 0
  cache _ X s := ∃ idx, s.pidx id = some idx ∧ IdxOk a c h w h2 w2 idx X
  anyVal := False
  blocks v B Z := IsTensor (fun t => IsMat t B 0 0 Z) v
  arg fd v B Z := IsTensor (fun t => MetricArg fd t B 0 Z) v
  fwdI := False
  fwdW := True
  pushW := False

section
variable {B : Nat} {x : Tensor ℝ} {s : Store ℝ} {X : Fin B → Fin (c * h * w) → ℝ}

theorem forward_run (hf : PoolSizes a h w h2 w2) (hx : IsBatch x B [c, h, w] (c * h * w) X) :
    Run (forward id a x) s fun v s' => IsBatch v B [c, h2, w2] (c * h2 * w2) ((poolMdl a c h w h2 w2 id).Y s X) ∧
      Step [id] s s' ∧ (poolMdl a c h w h2 w2 id).cache B X s' := by
  refine Run.bindLift (forward_ret hf hx) fun r ⟨h1, hidx⟩ => ?_
  obtain ⟨val, idx⟩ := r
  refine ⟨val, { s with pidx := fun j => if j = id then some idx else s.pidx j }, rfl, h1, ⟨rfl, rfl, fun _ => rfl, fun i hi => ⟨rfl, ?_⟩⟩, idx, ?_, hidx⟩
  · simp only [List.mem_singleton] at hi
    simp [hi]
  · simp

theorem getIdx_run {β : Type} {s : Store ℝ} {f : Tensor Nat → Prog ℝ β} {Q} (hc : (poolMdl a c h w h2 w2 id).cache B X s)
    (hf : ∀ idx, IdxOk a c h w h2 w2 idx X → Run (f idx) s Q) : Run (getIdx id >>= f) s Q := by
  obtain ⟨idx, h1, h2⟩ := hc
  refine Run.bind (P := fun i s' => i = idx ∧ s' = s) ⟨idx, s, by simp [getIdx, h1], rfl, rfl⟩ ?_
  rintro _ _ ⟨rfl, rfl⟩
  exact hf _ h2

/-- calls that get `val` and then use the stored indices -/
theorem pool_back (hf : PoolSizes a h w h2 w2) (hx : IsBatch x B [c, h, w] (c * h * w) X) {β : Type} {f : Tensor ℝ → Prog ℝ β} {post : β → Prop}
    (hrun : ∀ s' v, IsBatch v B [c, h2, w2] (c * h2 * w2) ((poolMdl a c h w h2 w2 id).Y s X) → (poolMdl a c h w h2 w2 id).cache B X s' →
      Run (f v) s' fun r s'' => post r ∧ s'' = s') :
    (poolMdl a c h w h2 w2 id).Back s X (fun val => getVal id a x val >>= f) post := by
  refine ⟨fun v hv hc => Run.bindPure (hrun s v (hv.resolve_left fun h => h) hc), ?_⟩
  refine Run.bind (forward_run hf hx) fun v s' ⟨hv, hs, hc⟩ => ?_
  refine (hrun s' v hv hc).mono fun r s'' ⟨hr, e⟩ => ?_
  subst e
  exact ⟨hr, hs, hc⟩

/-- calls about weights return `None` -/
theorem pool_none {β : Type} {b : β} {post : β → Prop} (hb : post b) : (poolMdl a c h w h2 w2 id).BackW s X (fun _ => Pure.pure b) post :=
  ⟨fun _ _ _ => Run.pure ⟨hb, rfl⟩, Run.pure ⟨hb, Step.refl, fun h => h⟩⟩

end

theorem sem_J (x : Fin (c * h * w) → ℝ) (θ) : (poolSem a c h w h2 w2).J θ x = poolJ a c h w h2 w2 x := rfl

/-- the squared Jacobian of a 0/1 matrix is itself -/
theorem sem_Q (x : Fin (c * h * w) → ℝ) (θ) : (poolSem a c h w h2 w2).Q θ x = poolJ a c h w h2 w2 x := by
  funext k m
  show poolJ a c h w h2 w2 x k m * poolJ a c h w h2 w2 x k m = _
  simp only [poolJ]
  split <;> simp

theorem sq_poolJ (x : Fin (c * h * w) → ℝ) : sq (poolJ a c h w h2 w2 x) = poolJ a c h w h2 w2 x := by
  funext k m
  simp only [sq, poolJ]
  split <;> simp

/-- the part of `jTmjp` after `val` is known, wrt input -/
theorem jT_input (hf : PoolFits a h w h2 w2) {B : Nat} {x v A : Tensor ℝ} {X : Fin B → Fin (c * h * w) → ℝ} {Y} {Z} {s : Store ℝ} {fd td db : Bool}
    (hx : IsBatch x B [c, h, w] (c * h * w) X) (hv : IsBatch v B [c, h2, w2] (c * h2 * w2) Y)
    (hc : (poolMdl a c h w h2 w2 id).cache B X s) (hA : MetricArg fd A B (c * h2 * w2) Z) :
    Run (jTmjp id a x (some v) (some A) .input fd td db) s fun r s' =>
      IsTensor (fun t => MetricOut td t B (c * h * w) fun b => (poolJ a c h w h2 w2 (X b))ᵀ * Z b * poolJ a c h w h2 w2 (X b)) r ∧ s' = s := by
  refine Run.bindPure ?_
  refine Run.bindLift (P := fun r => r = (B, c, h, w)) ⟨_, hx.dims4, rfl⟩ ?_
  rintro _ rfl
  refine Run.bindLift (P := fun r => r = (B, c, h2, w2)) ⟨_, hv.dims4, rfl⟩ ?_
  rintro _ rfl
  refine Run.bindAssert (by simp) ?_
  refine Run.bindLift (P := fun r => r = (A, fd)) ⟨_, rfl, rfl⟩ ?_
  rintro _ rfl
  cases fd
  · refine Run.bindAssert (decide_eq_true hA.1) (getIdx_run hc fun idx hidx => ?_)
    cases td
    · exact Run.bindLift (jTmjpFull_ret hf hidx hA) fun r hr => Run.pure ⟨hr, rfl⟩
    · exact Run.bindLift ((jTmjpFull_ret hf hidx hA).bind fun r hr => diagonal12_mat hr) fun r hr => Run.pure ⟨hr, rfl⟩
  · obtain ⟨d, hd, hZ⟩ := hA
    refine Run.bindAssert (decide_eq_true hd.1) (getIdx_run hc fun idx hidx => ?_)
    cases td
    · refine Run.bindLift ((diagEmbed_vec hd).bind fun m hm => jTmjpFull_ret hf hidx hm) fun r hr => Run.pure ⟨?_, rfl⟩
      exact IsMat.congr hr fun b i j => by rw [hZ]
    · refine Run.bindLift (jTmjpDiag_ret hf hx hidx hd) fun r hr => Run.pure ⟨?_, rfl⟩
      exact IsVec.congr hr fun b i => by simp only; rw [hZ, diag_sandwichT, sq_poolJ]

theorem jT_weight {B : Nat} {x v A : Tensor ℝ} {X : Fin B → Fin (c * h * w) → ℝ} {Y} {Z} {s : Store ℝ} {fd td db : Bool}
    (hx : IsBatch x B [c, h, w] (c * h * w) X) (hv : IsBatch v B [c, h2, w2] (c * h2 * w2) Y) (hA : MetricArg fd A B (c * h2 * w2) Z) :
    Run (jTmjp id a x (some v) (some A) .weight fd td db) s fun r s' => r = .none ∧ s' = s := by
  refine Run.bindPure ?_
  refine Run.bindLift (P := fun r => r = (B, c, h, w)) ⟨_, hx.dims4, rfl⟩ ?_
  rintro _ rfl
  refine Run.bindLift (P := fun r => r = (B, c, h2, w2)) ⟨_, hv.dims4, rfl⟩ ?_
  rintro _ rfl
  refine Run.bindAssert (by simp) ?_
  refine Run.bindLift (P := fun r => r = (A, fd)) ⟨_, rfl, rfl⟩ ?_
  rintro _ rfl
  cases fd
  · exact Run.bindAssert (decide_eq_true hA.1) (Run.pure ⟨rfl, rfl⟩)
  · obtain ⟨d, hd, hZ⟩ := hA
    exact Run.bindAssert (decide_eq_true hd.1) (Run.pure ⟨rfl, rfl⟩)

theorem jac_run (hf : PoolSizes a h w h2 w2) {B : Nat} {x : Tensor ℝ} {X : Fin B → Fin (c * h * w) → ℝ} {s : Store ℝ}
    (hx : IsBatch x B [c, h, w] (c * h * w) X) :
    Run ((MaxPool2d.mod a id).jacobian x none .input) s fun r s' =>
      IsSome (fun t => IsMat t B (c * h2 * w2) (c * h * w) ((poolMdl a c h w h2 w2 id).J s X)) r ∧ Step [id] s s' ∧ (poolMdl a c h w h2 w2 id).cache B X s' := by
  refine Run.bind (forward_run hf hx) fun v s' ⟨hv, hs, hc⟩ => ?_
  refine Run.bindLift (P := fun r => r = (B, c, h, w)) ⟨_, hx.dims4, rfl⟩ ?_
  rintro _ rfl
  refine Run.bindLift (P := fun r => r = (B, c, h2, w2)) ⟨_, hv.dims4, rfl⟩ ?_
  rintro _ rfl
  refine Run.bindAssert (by simp) ?_
  have h1 : IsVec (ones [B, c * h * w] : Tensor ℝ) B (c * h * w) fun _ _ => 1 := ⟨rfl, fun _ _ => rfl⟩
  refine Run.bindLift (diagEmbed_vec h1) fun I hI => ?_
  refine Run.bindPure (getIdx_run hc fun idx hidx => ?_)
  refine Run.bindLift (jmpBody_ret hf hx hv hidx hI) fun r hr => Run.pure ⟨hr.congr fun b i j => ?_, hs, hc⟩
  have : (diagonal (fun _ => 1) : Matrix (Fin (c * h * w)) _ ℝ) = 1 := diagonal_one
  rw [this, Matrix.mul_one]; rfl

theorem good_pool (hc : 0 < c) (hf : PoolFits a h w h2 w2) : Good (poolMdl a c h w h2 w2 id) where
  hn := size_img
  hk := size_img
  npos := Nat.mul_pos (Nat.mul_pos hc hf.hh) hf.hw
  kpos := Nat.mul_pos (Nat.mul_pos hc hf.hh2) hf.hw2
  nParams := rfl
  id_mem := List.mem_singleton.2 rfl
  wired_of := fun _ _ => trivial
  w_of := fun _ => rfl
  cache_frame := fun _ hfr ⟨idx, h1, h2⟩ => ⟨idx, by rw [(hfr id (List.mem_singleton.2 rfl)).2, h1], h2⟩
  arg_of_metric := fun h => h
  arg_of_blocks := fun {v} => by cases v <;> exact fun h => h
  blocks_ne := @fun v B Z h e => by subst e; exact h
  mask_diag := fun d => by funext i; exact i.elim0
  forward := fun _ _ hx => forward_run hf.toPoolSizes hx
  jacI := @fun s B X x _ hB hx => jac_run hf.toPoolSizes hx
  jacW := fun _ _ _ _ => Run.pure ⟨rfl, Step.refl, fun h => h⟩
  vjpI := @fun s B X x u U _ hB hx hu => pool_back hf.toPoolSizes hx fun s' v hv hc => getIdx_run hc fun idx hidx =>
    Run.bindLift (vjpBody_ret hf hx hv hidx hu) fun r hr => Run.pure ⟨hr, rfl⟩
  vjpW := fun _ _ _ _ => pool_none rfl
  mjpI := @fun s B X x r A Z _ hB hx hr hA => pool_back hf.toPoolSizes hx fun s' v hv hc => getIdx_run hc fun idx hidx =>
    Run.bindLift (mjpBody_ret hf hx hv hidx hA) fun r hr => Run.pure ⟨hr, rfl⟩
  mjpW := fun _ _ _ _ _ => pool_none rfl
  jTI := @fun s B X x A Z fd td _ hB hx hA => pool_back hf.toPoolSizes hx fun s' v hv hc => jT_input (db := false) hf hx hv hc hA
  jTIdb := @fun s B X x A d _ hB hx hA => pool_back hf.toPoolSizes hx fun s' v hv hc => by
    refine (jT_input (td := true) (db := true) hf hx hv hc (MetricArg.diag hA)).mono fun r s'' ⟨hr, hs⟩ => ⟨hr.mono fun t ht => IsVec.congr ht fun b i => ?_, hs⟩
    rw [diag_sandwichT, sq_poolJ, Mdl.Q]
    exact congrFun (congrArg (d b ᵥ* ·) (sem_Q (X b) _).symm) i
  jTWd := @fun s B X x A Z fd _ hB hx hA => pool_back hf.toPoolSizes hx fun s' v hv hc => jT_weight (id := id) (a := a) (td := true) (db := false) hx hv hA
  jTWdb := @fun s B X x A d _ hB hx hA => pool_back hf.toPoolSizes hx fun s' v hv hc => jT_weight (id := id) (a := a) (td := true) (db := true) hx hv (MetricArg.diag hA)
  jTWf := @fun s B X x A Z fd _ hB hx hA => pool_back hf.toPoolSizes hx fun s' v hv hc => jT_weight (id := id) (a := a) (td := false) (db := false) hx hv hA
  jvpI := fun h => h.elim
  jvpW := fun h => h.elim
  jmpI := fun h => h.elim
  jmpW := fun h => h.elim
  jmjI := fun h => h.elim
  jmjIdb := fun h => h.elim
  jmjW := fun h => h.elim
  jmjWdb := fun h => h.elim

end MaxPool2d
end NNJ
