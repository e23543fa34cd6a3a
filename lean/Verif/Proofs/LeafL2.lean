import Verif.Proofs.LeafDiag
import Verif.Proofs.Struct

/-! L2Norm meets the contract (with the matrix it uses as Jacobian). -/

namespace NNJ
open Tensor Matrix

/-- A layer with a symmetric Jacobian that inherits everything from `AbstractJacobian`. -/
theorem leafOk_symmetric {sI sO : List Nat} {n : Nat} {fwd : Tensor ℝ → Res (Tensor ℝ)} {jac : AbstractJacobian.Jac ℝ}
    {f : (Fin n → ℝ) → Fin n → ℝ} {J : (Fin n → ℝ) → Matrix (Fin n) (Fin n) ℝ}
    (hf : ∀ {B X x}, 0 < B → IsBatch x B sI n X → Ret (fwd x) fun v => IsBatch v B sO n fun b => f (X b))
    (hj : ∀ {B X x val}, 0 < B → IsBatch x B sI n X → (∀ v ∈ val, IsBatch v B sO n fun b => f (X b)) →
      Ret (jac x val .input) (IsSome fun t => IsMat t B n n fun b => J (X b)))
    (hsym : ∀ x, (J x)ᵀ = J x) (hw : ∀ x val, jac x val .weight = .ok none) :
    LeafOk (AbstractJacobian.defaults fwd jac) sI n sO n 0 f J (fun _ => 0) := by
  refine {
    forward := hf, jacI := fun hB hx => hj hB hx (by simp), jacW := fun hB hx => ?_
    vjpI := fun hB hx hv hu => ?_, vjpW := fun hB hx hv hu => ?_, mjpI := fun hB hx hv hr hA => ?_
    mjpW := fun hB hx hv hr hA => ?_, jTI := fun fd td hB hx hv hA => ?_, jTW := fun fd td hB hx hv hA => ?_
    jT_db := rfl, jvpI := fun hB hx hv hu => ?_, jvpW := fun hB hx hv hu => ?_, jmpI := fun hB hx hv hA => ?_
    jmpW := fun hB hx hv hA => ?_, jmjI := fun fd td hB hx hv hA => ?_
    jmjW := fun h => absurd h (lt_irrefl 0), jmj_db := rfl }
  · simp only [AbstractJacobian.defaults, hw]; exact optW_zero
  · obtain ⟨d, hd, hD⟩ := (hj hB hx hv).exists_some
    simp only [AbstractJacobian.defaults, AbstractJacobian.vjp, hd, Res.bind_ok]
    exact (ein_bi_bij hu hD).some
  · simp only [AbstractJacobian.defaults, AbstractJacobian.vjp, hw, Res.bind_ok]; exact optW_zero
  · obtain ⟨d, hd, hD⟩ := (hj hB hx hv).exists_some
    simp only [AbstractJacobian.defaults, AbstractJacobian.mjp, hd, Res.bind_ok, needR]
    exact (ein_bij_bjk hA hD).some
  · simp only [AbstractJacobian.defaults, AbstractJacobian.mjp, hw, Res.bind_ok]; exact optW_zero
  · obtain ⟨d, hd, hD⟩ := (hj hB hx hv).exists_some
    cases fd <;> cases td
    · simp only [AbstractJacobian.defaults, AbstractJacobian.jTmjp, hd, Res.bind_ok, needR]
      exact (ein_bji_bjk_bkl hD hA).some
    · simp only [hsym]; exact AbstractJacobian.jTmjp_core (fd := false) (td := true) hd hD hA (by simp)
    · simp only [hsym]; exact AbstractJacobian.jTmjp_core (fd := true) (td := false) hd hD hA (by simp)
    · simp only [hsym]; exact AbstractJacobian.jTmjp_core (fd := true) (td := true) hd hD hA (by simp)
  · simp only [AbstractJacobian.defaults, AbstractJacobian.jTmjp, hw, Res.bind_ok]; exact optW_zero
  · obtain ⟨d, hd, hD⟩ := (hj hB hx hv).exists_some
    simp only [AbstractJacobian.defaults, AbstractJacobian.jvp, hd, Res.bind_ok]
    exact (ein_bij_bj hD hu).some
  · simp only [AbstractJacobian.defaults, AbstractJacobian.jvp, hw, Res.bind_ok]; exact optW_zero
  · obtain ⟨d, hd, hD⟩ := (hj hB hx hv).exists_some
    simp only [AbstractJacobian.defaults, AbstractJacobian.jmp, hd, Res.bind_ok, needR]
    exact (ein_bij_bjk hD hA).some
  · simp only [AbstractJacobian.defaults, AbstractJacobian.jmp, hw, Res.bind_ok]; exact optW_zero
  · obtain ⟨d, hd, hD⟩ := (hj hB hx hv).exists_some
    exact AbstractJacobian.jmjTp_core hd hD hA

namespace L2Norm

/-- `1 / (norm + eps)` of each sample -/
noncomputable def scale (eps : ℝ) {n : Nat} (x : Fin n → ℝ) : ℝ := 1 / (norm2 x + eps)

theorem rowNorm_inv {B n : Nat} {x : Tensor ℝ} {X : Fin B → Fin n → ℝ} (eps : ℝ) (hx : IsVec x B n X) :
    Ret (rowNorm x) fun t => (inv eps t).shape = [B] ∧ ∀ b : Fin B, (inv eps t).get [b] = scale eps (X b) := by
  simp only [rowNorm, hx.1]
  refine Ret.ok ⟨rfl, fun b => ?_⟩
  rw [get1 (n := B) rfl]
  simp only [inv, Tensor.map, sumRange_eq, scale, norm2, Trans.sqrt]
  congr 3
  exact Finset.sum_congr rfl fun i _ => by rw [hx.data]

theorem ein_b_bi {B n : Nat} {u x : Tensor ℝ} {d : Fin B → ℝ} {X : Fin B → Fin n → ℝ} (hs : u.shape = [B])
    (hu : ∀ b : Fin B, u.get [b] = d b) (hx : IsVec x B n X) :
    Ret (einsum% "b,bi->bi" [u, x]) fun r => IsVec r B n fun b i => d b * X b i := by
  ein [('b', B), ('i', n)] [hs, hu, hx.1, hx.2]

theorem ein_b_bj {B n : Nat} {u x : Tensor ℝ} {d : Fin B → ℝ} {X : Fin B → Fin n → ℝ} (hs : u.shape = [B])
    (hu : ∀ b : Fin B, u.get [b] = d b) (hx : IsVec x B n X) :
    Ret (einsum% "b,bj->bj" [u, x]) fun r => IsVec r B n fun b i => d b * X b i := by
  ein [('b', B), ('j', n)] [hs, hu, hx.1, hx.2]

theorem ein_b_bij {B n m : Nat} {u x : Tensor ℝ} {d : Fin B → ℝ} {M : Fin B → Matrix (Fin n) (Fin m) ℝ} (hs : u.shape = [B])
    (hu : ∀ b : Fin B, u.get [b] = d b) (hx : IsMat x B n m M) :
    Ret (einsum% "b,bij->bij" [u, x]) fun r => IsMat r B n m fun b i j => d b * M b i j := by
  ein [('b', B), ('i', n), ('j', m)] [hs, hu, hx.1, hx.2]

theorem ein_bi_bj_bij {B n m : Nat} {u x : Tensor ℝ} {U : Fin B → Fin n → ℝ} {X : Fin B → Fin m → ℝ}
    (hu : IsVec u B n U) (hx : IsVec x B m X) :
    Ret (einsum% "bi,bj->bij" [u, x]) fun r => IsMat r B n m fun b i j => U b i * X b j := by
  ein [('b', B), ('i', n), ('j', m)] [hu.1, hu.2, hx.1, hx.2]

theorem dm_zip_map : ∀ {e : List Char} {s : List Nat}, e.Nodup → e.length = s.length → e.map (dm (e.zip s)) = s
  | [], [], _, _ => rfl
  | c :: e, n :: s, he, hl => by
    have he' := List.nodup_cons.1 he
    simp only [List.zip_cons_cons, List.map_cons, dm, if_true]
    congr 1
    rw [List.map_congr_left (g := dm (e.zip s)) fun c' hc' => if_neg fun hcc => he'.1 (by rw [hcc]; exact hc')]
    exact dm_zip_map he'.2 (by simpa using hl)

theorem envGet_zip_map : ∀ {e : List Char} {s : List Nat}, e.Nodup → e.length = s.length → e.map (envGet (e.zip s)) = s
  | [], [], _, _ => rfl
  | c :: e, n :: s, he, hl => by
    have he' := List.nodup_cons.1 he
    simp only [List.zip_cons_cons, List.map_cons, envGet, if_true]
    congr 1
    rw [List.map_congr_left (g := envGet (e.zip s)) fun c' hc' => if_neg fun hcc => he'.1 (by rw [hcc]; exact hc')]
    exact envGet_zip_map he'.2 (by simpa using hl)

theorem contracted_nil {out : List Char} : ∀ {cs seen : List Char}, (∀ c ∈ cs, c ∈ out) → contracted out cs seen = []
  | [], _, _ => rfl
  | c :: cs, seen, h => by
    rw [contracted, if_pos (Or.inl (h c (by simp)))]
    exact contracted_nil fun c' hc' => h c' (by simp [hc'])

/-- the einsum "b,b...->b..." scales every sample -/
theorem ein_b_ellipsis {B n : Nat} {s : List Nat} {e : List Char} {u x : Tensor ℝ} {d : Fin B → ℝ} {X : Fin B → Fin n → ℝ}
    (he : ('b' :: e).Nodup) (hl : e.length = s.length) (hn : size s = n) (hs : u.shape = [B]) (hu : ∀ b : Fin B, u.get [b] = d b)
    (hx : IsBatch x B s n X) :
    Ret (einsum [['b'], 'b' :: e] ('b' :: e) [u, x]) fun r => IsBatch r B s n fun b i => d b * X b i := by
  have hD : ('b' :: e).map (dm (('b' :: e).zip (B :: s))) = B :: s := dm_zip_map he (by simpa using hl)
  refine ein_ret (dm (('b' :: e).zip (B :: s))) ⟨?_, ?_, trivial⟩ (by simp) fun r hr hg => ?_
  · rw [hs]; simp [dm]
  · rw [hD, hx.1]
  · rw [hD] at hr hg
    refine ⟨hr, fun b i => ?_⟩
    have hk : (b : Nat) * n + i < size (B :: s) := by
      rw [size_cons, hn]
      calc (b : Nat) * n + i < b * n + n := by omega
        _ = (b + 1) * n := by ring
        _ ≤ B * n := Nat.mul_le_mul_right _ b.2
    have hv := unravel_valid hk
    have h := hg _ hv
    rw [contracted_nil (by simp)] at h
    rw [Tensor.get, hr, ravel_unravel hk] at h
    rw [h]
    have hlen := hv.length
    have h0 : ((b : Nat) * n + i) / n = b := by
      rw [Nat.mul_comm, Nat.mul_add_div (Nat.lt_of_le_of_lt (Nat.zero_le _) i.2), Nat.div_eq_of_lt i.2, Nat.add_zero]
    have hm := envGet_zip_map he (s := unravel (B :: s) (b * n + i)) (by rw [hlen]; simpa using hl)
    simp only [sumLabels, plainProd, hm]
    have hx' : x.get (unravel (B :: s) (b * n + i)) = X b i := by
      rw [Tensor.get, hx.1, ravel_unravel hk, hx.2]
    have hu' : u.get (['b'].map (envGet (('b' :: e).zip (unravel (B :: s) (b * n + i))))) = d b := by
      rw [← hu b]; simp [unravel, envGet, hn, h0]
    rw [hx', hu']
    simp [prodList]

end L2Norm

open L2Norm in
theorem leafOk_l2 (eps : ℝ) {s : List Nat} {n : Nat} (hn : size s = n) (hr : s.length ≤ 8) :
    LeafOk (L2Norm.layer eps) s n s n 0 (fun x i => 1 / (norm2 x + eps) * x i)
      (fun x i j => 1 / (norm2 x + eps) *
        ((if i = j then 1 else 0) - (1 / (norm2 x + eps) * x i) * (1 / (norm2 x + eps) * x j)))
      (fun _ => 0) := by
  have hf : ∀ {B} {X : Fin B → Fin n → ℝ} {x}, 0 < B → IsBatch x B s n X →
      Ret (L2Norm.forward eps x) fun v => IsBatch v B s n fun b i => 1 / (norm2 (X b) + eps) * X b i := by
    intro B X x hB hx
    refine Ret.sok hx.dim0 ((reshapeInfer_batch hx hn hB).bind fun xf hxf => (rowNorm_inv eps hxf).bind fun t ht => ?_)
    rw [hx.1, List.length_cons, Nat.add_sub_cancel]
    refine ein_b_ellipsis ?_ ?_ hn ht.1 ht.2 hx
    · have : (['j', 'k', 'l', 'm', 'n', 'o', 'p', 'q'] : List Char).Nodup := by decide
      refine List.nodup_cons.2 ⟨fun h => absurd (List.mem_of_mem_take h) (by decide), this.sublist (List.take_sublist _ _)⟩
    · simpa [AbstractDiagonal.ellipsis] using hr
  refine leafOk_symmetric hf (fun {B X x val} hB hx hv => ?_) (fun x => ?_) (fun _ _ => rfl)
  · have key : Ret (do
        let b0 ← x.dim 0
        let x ← x.reshapeInfer [b0] []
        let (b, d) ← x.dims2
        let norm ← rowNorm x
        let normalized ← einsum% "b,bi->bi" [inv eps norm, x]
        let j ← einsum% "bi,bj->bij" [normalized, normalized]
        let eye ← (ones [d] : Tensor ℝ).diagEmbed
        let eye ← eye.unsqueeze 0
        let eye ← eye.expandAt 0 b
        let j ← eye.sub j
        some <$> einsum% "b,bij->bij" [inv eps norm, j]) (IsSome fun t => IsMat t B n n fun b i j => 1 / (norm2 (X b) + eps) *
        ((if i = j then 1 else 0) - (1 / (norm2 (X b) + eps) * X b i) * (1 / (norm2 (X b) + eps) * X b j))) := by
      refine Ret.sok hx.dim0 ((reshapeInfer_batch hx hn hB).bind fun xf hxf => ?_)
      refine Ret.sok (b := (B, n)) (by simp [dims2, hxf.1]) ((rowNorm_inv eps hxf).bind fun t ht => ?_)
      refine (ein_b_bi ht.1 ht.2 hxf).bind fun nd hnd => (ein_bi_bj_bij hnd hnd).bind fun j hj => ?_
      refine eye_ret.bind fun e he => ?_
      refine unsqueeze_expand B he.1 he.2 fun E hE => (sub_mat hE hj).bind fun r hr => ?_
      refine (ein_b_bij ht.1 ht.2 hr).some.mono fun o ho => IsSome.mono ho fun t ht => ht.congr fun b i j => ?_
      show scale eps (X b) * ((1 : Matrix (Fin n) (Fin n) ℝ) i j - _) = _
      rw [one_apply]
      rfl
    obtain ⟨v, ⟨rfl, h1⟩ | ⟨rfl, h1⟩, hv'⟩ := val_cases (f := fun x i => 1 / (norm2 x + eps) * x i) hf hB hx hv
    · exact Ret.sok (b := v) rfl key
    · exact Ret.sok h1 key
  · funext i j
    show 1 / (norm2 x + eps) * ((if j = i then 1 else 0) - 1 / (norm2 x + eps) * x j * (1 / (norm2 x + eps) * x i)) = _
    simp only [eq_comm (a := j) (b := i)]
    ring

end NNJ
