import Verif.Proofs.JacTests
import Verif.Proofs.Storage

/-! tests/jacobians.py, with respect to the weights. -/

namespace NNJ
namespace Tests
open Tensor Matrix

/-! ### the gradients of the parameters -/

theorem accumulate_nodup {sh : Nat → List Nat} : ∀ {is : List Nat} {gs : List (Tensor ℝ)} {buf : Grads}, is.Nodup →
    List.Forall₂ (fun i g => g.shape = sh i) is gs → (∀ i ∈ is, buf i = none ∨ buf i = some (zeros (sh i))) →
    ∃ buf', accumulate is gs buf = .ok buf' ∧ List.Forall₂ (fun i g => buf' i = some g) is gs ∧ ∀ i ∉ is, buf' i = buf i
  | [], [], buf, _, _, _ => ⟨buf, rfl, .nil, fun _ _ => rfl⟩
  | i :: is, g :: gs, buf, hn, hf, hc => by
    cases hf with
    | cons h1 h2 =>
      obtain ⟨hni, hn'⟩ := List.nodup_cons.1 hn
      have hset : ∀ j ∈ is, (buf.set i g) j = buf j := fun j hj => if_neg fun e : j = i => hni (e ▸ hj)
      obtain ⟨buf', e, hF, ho⟩ := accumulate_nodup (buf := buf.set i g) hn' h2 fun j hj => by rw [hset j hj]; exact hc j (by simp [hj])
      refine ⟨buf', ?_, .cons ((ho i hni).trans (if_pos rfl)) hF, fun j hj => ?_⟩
      · rcases hc i (by simp) with h | h
        · simp only [accumulate, h]; exact e
        · have : Tensor.add (zeros (sh i)) g = .ok g := by
            obtain ⟨gs, gd⟩ := g
            obtain rfl : gs = sh i := h1
            simp only [Tensor.add, zipWithB, zeros, full, if_true, zero_add]
          simp only [accumulate, h, this, Res.bind_ok]
          exact e
      · simp only [List.mem_cons, not_or] at hj
        rw [ho j hj.2]
        exact if_neg hj.1

theorem accumulate_shape {sh : Nat → List Nat} : ∀ {is : List Nat} {gs : List (Tensor ℝ)} {buf : Grads},
    List.Forall₂ (fun i g => g.shape = sh i) is gs → (∀ i h, buf i = some h → i ∈ is → h.shape = sh i) →
    ∃ buf', accumulate is gs buf = .ok buf' ∧ (∀ i, i ∈ is ∨ (∃ t, buf i = some t ∧ t.shape = sh i) → ∃ t, buf' i = some t ∧ t.shape = sh i) ∧ ∀ i ∉ is, buf' i = buf i
  | [], [], buf, _, _ => ⟨buf, rfl, fun i h => by simpa using h, fun _ _ => rfl⟩
  | i :: is, g :: gs, buf, hf, hc => by
    cases hf with
    | cons h1 h2 =>
      have key : ∀ t : Tensor ℝ, t.shape = sh i → ∃ buf', accumulate is gs (buf.set i t) = .ok buf' ∧
          (∀ j, j ∈ i :: is ∨ (∃ t, buf j = some t ∧ t.shape = sh j) → ∃ t, buf' j = some t ∧ t.shape = sh j) ∧ ∀ j ∉ i :: is, buf' j = buf j := fun t ht => by
        obtain ⟨buf', e, hF, ho⟩ := accumulate_shape (buf := buf.set i t) h2 fun j h hj hjm => by
          by_cases hji : j = i
          · subst hji
            rw [Grads.set, if_pos rfl] at hj
            obtain rfl : t = h := by simpa using hj
            exact ht
          · rw [Grads.set, if_neg hji] at hj
            exact hc j h hj (by simp [hjm])
        refine ⟨buf', e, fun j hj => hF j ?_, fun j hj => ?_⟩
        · by_cases hji : j = i
          · subst hji
            exact .inr ⟨t, if_pos rfl, ht⟩
          · rcases hj with hj | ⟨u, hu⟩
            · exact .inl ((List.mem_cons.1 hj).resolve_left hji)
            · exact .inr ⟨u, by rw [Grads.set, if_neg hji]; exact hu.1, hu.2⟩
        · simp only [List.mem_cons, not_or] at hj
          rw [ho j hj.2]
          exact if_neg hj.1
      cases hb : buf i with
      | none => simp only [accumulate, hb]; exact key g h1
      | some h =>
        have hs := hc i h hb (by simp)
        have : Tensor.add h g = .ok ⟨sh i, fun k => h.data k + g.data k⟩ := by simp only [Tensor.add, zipWithB, hs, h1, if_true]
        simp only [accumulate, hb, this, Res.bind_ok]
        exact key _ rfl

theorem collect_run {T : Nat → Tensor ℝ} : ∀ {is : List Nat} {buf : Grads}, is.Nodup → (∀ i ∈ is, buf i = some (T i)) →
    ∃ buf', collect is buf = .ok (is.map fun i => ⟨[(T i).numel], (T i).data⟩, buf') ∧ (∀ i ∈ is, buf' i = some (zeros (T i).shape)) ∧ ∀ i ∉ is, buf' i = buf i
  | [], buf, _, _ => ⟨buf, rfl, by simp, fun _ _ => rfl⟩
  | i :: is, buf, hn, h => by
    obtain ⟨hni, hn'⟩ := List.nodup_cons.1 hn
    obtain ⟨buf', e, h1, h2⟩ := collect_run (T := T) (buf := buf.set i (zerosLike (T i))) hn' fun j hj => by
      rw [Grads.set, if_neg fun e : j = i => hni (e ▸ hj)]; exact h j (by simp [hj])
    refine ⟨buf', ?_, fun j hj => ?_, fun j hj => ?_⟩
    · simp only [collect, h i (by simp), needR, Res.bind_ok, e]
      rfl
    · rcases List.mem_cons.1 hj with rfl | hj
      · rw [h2 j hni]; exact if_pos rfl
      · exact h1 j hj
    · simp only [List.mem_cons, not_or] at hj
      rw [h2 j hj.2]
      exact if_neg hj.1

/-- a state with given parameters, to speak about flattened lists of tensors -/
def withParams (T : Nat → Tensor ℝ) : Store ℝ := ⟨T, fun _ => none, fun _ => none, fun _ => []⟩

theorem cat_flat {T : Nat → Tensor ℝ} {is : List Nat} (hne : is ≠ []) :
    ∃ r, cat 0 (is.map fun i => (⟨[(T i).numel], (T i).data⟩ : Tensor ℝ)) = .ok r ∧ r.shape = [flatLen (withParams T) is] ∧
      ∀ j < flatLen (withParams T) is, r.data j = flatAt (withParams T) is j := by
  obtain ⟨i, is, rfl⟩ := List.exists_cons_of_ne_nil hne
  obtain ⟨r, hr, hrs, hrd⟩ := cat_params (withParams T) is ⟨[(T i).numel], (T i).data⟩ _ rfl
  refine ⟨r, ?_, ?_, fun k hk => ?_⟩
  · simp only [List.map_cons, Tensor.cat, List.length_cons, List.length_nil]
    rw [if_pos (by omega)]
    exact hr
  · rw [hrs]; rfl
  · rw [hrd k hk]; rfl

theorem flatLen_total {T : Nat → Tensor ℝ} {sh : Nat → List Nat} : ∀ {is : List Nat}, (∀ i ∈ is, (T i).shape = sh i) → flatLen (withParams T) is = totalSize sh is
  | [], _ => rfl
  | i :: is, h => by
    have e : ((withParams T).param i).numel = size (sh i) := by
      show size (T i).shape = _
      rw [h i (by simp)]
    simp only [flatLen, totalSize, List.map_cons, List.sum_cons]
    rw [flatLen_total (sh := sh) fun j hj => h j (by simp [hj]), e]
    rfl

theorem flatAt_catAt {T : Nat → Tensor ℝ} : ∀ {is : List Nat} {gs : List (Tensor ℝ)}, List.Forall₂ (fun i g => T i = g) is gs → ∀ j, flatAt (withParams T) is j = catAt gs j
  | [], [], _, _ => rfl
  | i :: is, g :: gs, h, j => by
    cases h with
    | cons h1 h2 =>
      simp only [flatAt, catAt, flatAt_catAt h2]
      rw [show (withParams T).param i = g from h1]

theorem mem_dedup {i : Nat} : ∀ (l seen : List Nat), i ∈ l → i ∉ seen → i ∈ dedupFirst seen l
  | a :: l, seen, h, hs => by
    simp only [dedupFirst]
    split
    · rename_i ha
      exact mem_dedup l seen ((List.mem_cons.1 h).resolve_left fun e => hs (e ▸ ha)) hs
    · by_cases e : i = a
      · simp [e]
      · exact List.mem_cons_of_mem _ (mem_dedup l (a :: seen) ((List.mem_cons.1 h).resolve_left e) (by simp [e, hs]))

theorem setRow_filled {B k p b o : Nat} {G : Fin B → Matrix (Fin k) (Fin p) ℝ} {D : Nat → Nat → Prop} {t row : Tensor ℝ} (h : Filled G D t) (hb : b < B) (ho : o < k)
    (hr : row.shape = [p]) (hd : ∀ j : Fin p, row.data j = G ⟨b, hb⟩ ⟨o, ho⟩ j) :
    ∃ t', setRow t row b o = .ok t' ∧ Filled G (fun a i => D a i ∨ a = b ∧ i = o) t' := by
  refine ⟨_, by simp only [setRow, h.1, hr]; rw [if_pos ⟨hb, ho⟩, if_pos (.inl trivial)], rfl, fun a i j hD => ?_⟩
  rw [get_ofFn _ (by simp)]
  dsimp only
  by_cases hi : (a : Nat) = b ∧ (i : Nat) = o
  · rw [if_pos hi, if_pos trivial]
    have e1 : a = ⟨b, hb⟩ := Fin.ext hi.1
    have e2 : i = ⟨o, ho⟩ := Fin.ext hi.2
    rw [e1, e2, ← hd j]
    simp [Tensor.get, hr, ravel]
  · rw [if_neg hi]
    exact h.2 a i j (hD.resolve_right hi)

theorem slice_sample {B n : Nat} {s : List Nat} {x : Tensor ℝ} {X : Fin B → Fin n → ℝ} (hs : size s = n) (hx : IsBatch x B s n X) (b : Fin B) :
    Ret (x.slice 0 b (b + 1)) fun r => IsBatch r 1 s n fun _ => X b := by
  have hb := b.2
  simp only [slice, hx.1, List.getElem?_cons_zero, List.set]
  rw [show min (b : Nat) B = b by omega, show min (b + 1 : Nat) B = b + 1 by omega, show (b + 1 - b : Nat) = 1 by omega]
  refine Ret.ok ⟨rfl, fun c i => ?_⟩
  have hi : (i : Nat) < size s := by rw [hs]; exact i.2
  rw [ofFn_data, Fin.val_eq_zero c, Nat.zero_mul, Nat.zero_add]
  simp only [unravel, Nat.div_eq_of_lt hi, Nat.mod_eq_of_lt hi, List.set, List.getD_cons_zero, Tensor.get, hx.1, ravel, ravel_unravel hi, Nat.zero_add]
  rw [hs]
  exact hx.2 b i

section
variable {s s' : List Nat} {n k p B : Nat} {L : Mod ℝ} {ag : Autograd} {I : Store ℝ → Prop} {x : Tensor ℝ} {X : Fin B → Fin n → ℝ} {G : Fin B → Matrix (Fin k) (Fin p) ℝ}
  {sh : Nat → List Nat} {ps : List Nat}

/-- what autograd computes for sample `b` and output `o` -/
def GradsRun (L : Mod ℝ) (ag : Autograd) (I : Store ℝ → Prop) (s : List Nat) (X : Fin B → Fin n → ℝ) (G : Fin B → Matrix (Fin k) (Fin p) ℝ) (sh : Nat → List Nat) : Prop :=
  ∀ (b : Fin B) (o : Fin k) (x1 : Tensor ℝ) (st : Store ℝ), I st → IsBatch x1 1 s n (fun _ => X b) → Run (ag.grads x1 o) st fun gs st' =>
    (List.Forall₂ (fun i g => g.shape = sh i) L.params gs ∧ ∀ j : Fin p, catAt gs j = G b o j) ∧ I st'

theorem fillOutputs_run (hps : L.params ⊆ ps) (hn : L.params.Nodup) (hp : totalSize sh L.params = p) (hp0 : 0 < p) (hg : GradsRun L ag I s X G sh) (b : Fin B) {x1 : Tensor ℝ}
    (hx1 : IsBatch x1 1 s n (fun _ => X b)) :
    ∀ (os : List Nat) (D : Nat → Nat → Prop) (t : Tensor ℝ) (buf : Grads) (st : Store ℝ), (∀ o ∈ os, o < k) → I st → Filled G D t →
      (∀ i ∈ ps, buf i = none ∨ buf i = some (zeros (sh i))) →
      Run (fillOutputs L ag x1 b os t buf) st fun r st' =>
        (Filled G (fun a i => D a i ∨ a = b ∧ i ∈ os) r.1 ∧ ∀ i ∈ ps, r.2 i = none ∨ r.2 i = some (zeros (sh i))) ∧ I st' := by
  intro os
  induction os with
  | nil => intro D t buf st _ hI ht hb; exact ⟨(t, buf), st, rfl, ⟨⟨ht.1, fun b i j h => ht.2 b i j (by simpa using h)⟩, hb⟩, hI⟩
  | cons o os ih =>
    intro D t buf st ho hI ht hb
    have hok : o < k := ho o (by simp)
    simp only [fillOutputs]
    refine Run.bind (hg b ⟨o, hok⟩ x1 st hI hx1) ?_
    intro gs st1 ⟨⟨hf, hG⟩, hI1⟩
    obtain ⟨buf1, e1, hF, ho1⟩ := accumulate_nodup hn hf fun i hi => hb i (hps hi)
    rw [e1]
    refine Run.bindEq rfl ?_
    have hpar : L.parameters = L.params := dedupFirst_nodup _ _ hn (by simp)
    rw [hpar]
    set T : Nat → Tensor ℝ := fun i => (buf1 i).getD (zeros []) with hT
    have hTg : List.Forall₂ (fun i g => T i = g) L.params gs := hF.imp fun i g h => by simp [hT, h]
    have hTs : ∀ i ∈ L.params, buf1 i = some (T i) ∧ (T i).shape = sh i := by
      clear_value T
      clear hG e1 hn hp hpar ih hb hg ho1 hps
      generalize L.params = ps at hF hf hTg ⊢
      induction hF with
      | nil => simp
      | cons h1 h2 ih =>
        cases hf with
        | cons hf1 hf2 =>
          cases hTg with
          | cons hT1 hT2 =>
            intro i hi
            rcases List.mem_cons.1 hi with rfl | hi
            · exact ⟨by rw [h1, hT1], by rw [hT1, hf1]⟩
            · exact ih hf2 hT2 i hi
    obtain ⟨buf2, e2, hz, ho2⟩ := collect_run (T := T) hn fun i hi => (hTs i hi).1
    rw [e2]
    refine Run.bindEq rfl ?_
    have hne : L.params ≠ [] := by rintro h; rw [h] at hp; simp [totalSize] at hp; omega
    obtain ⟨row, e3, hr1, hr2⟩ := cat_flat (T := T) hne
    rw [flatLen_total fun i hi => (hTs i hi).2, hp] at hr1 hr2
    dsimp only
    rw [e3]
    refine Run.bindEq rfl ?_
    obtain ⟨t', e4, ht'⟩ := setRow_filled ht b.2 hok hr1 fun j => by rw [hr2 j j.2, flatAt_catAt hTg, hG j]
    rw [e4]
    refine Run.bindEq rfl ?_
    refine (ih _ t' buf2 st1 (fun o' h => ho o' (by simp [h])) hI1 ht' fun i hi => by
      by_cases hm : i ∈ L.params
      · exact .inr (by rw [hz i hm, (hTs i hm).2])
      · rw [ho2 i hm, ho1 i hm]; exact hb i hi).mono fun r st2 ⟨⟨h1, h2⟩, h3⟩ =>
      ⟨⟨⟨h1.1, fun a i j h => h1.2 a i j ?_⟩, h2⟩, h3⟩
    simp only [List.mem_cons] at h
    tauto

theorem fillWeight_run (hs : size s = n) (hs' : size s' = k) (hps : L.params ⊆ ps) (hn : L.params.Nodup) (hp : totalSize sh L.params = p) (hp0 : 0 < p) (hg : GradsRun L ag I s X G sh) (hx : IsBatch x B s n X)
    (hc : ∀ (b : Fin B) x1 st, I st → IsBatch x1 1 s n (fun _ => X b) → Run (L.call x1) st fun y st' => y.shape = 1 :: s' ∧ I st') :
    ∀ (bs : List Nat) (D : Nat → Nat → Prop) (t : Tensor ℝ) (buf : Grads) (st : Store ℝ), (∀ b ∈ bs, b < B) → I st → Filled G D t →
      (∀ i ∈ ps, buf i = none ∨ buf i = some (zeros (sh i))) →
      Run (fillWeight L ag x k bs t buf) st fun r st' =>
        (Filled G (fun a i => D a i ∨ a ∈ bs ∧ i < k) r.1 ∧ ∀ i ∈ ps, r.2 i = none ∨ r.2 i = some (zeros (sh i))) ∧ I st' := by
  intro bs
  induction bs with
  | nil => intro D t buf st _ hI ht hb; exact ⟨(t, buf), st, rfl, ⟨⟨ht.1, fun b i j h => ht.2 b i j (by simpa using h)⟩, hb⟩, hI⟩
  | cons b bs ih =>
    intro D t buf st hbs hI ht hb
    have hbB : b < B := hbs b (by simp)
    simp only [fillWeight]
    obtain ⟨x1, e1, hx1⟩ := slice_sample hs hx ⟨b, hbB⟩
    dsimp only at e1
    rw [e1]
    refine Run.bindEq rfl ?_
    refine Run.bind (hc ⟨b, hbB⟩ x1 st hI hx1) ?_
    intro y st1 ⟨hy, hI1⟩
    have hr : y.reshape [k] = .ok ⟨[k], y.data⟩ := by rw [reshape, if_pos]; simp [numel, hy, size, hs']
    rw [hr]
    refine Run.bindEq rfl ?_
    refine Run.bind (fillOutputs_run hps hn hp hp0 hg ⟨b, hbB⟩ hx1 (List.range k) D t buf st1 (fun o => List.mem_range.1) hI1 ht hb) ?_
    intro r st2 ⟨⟨h1, h2⟩, hI2⟩
    refine (ih _ r.1 r.2 st2 (fun b' h => hbs b' (by simp [h])) hI2 h1 h2).mono fun r' st3 ⟨⟨h3, h4⟩, h5⟩ =>
      ⟨⟨⟨h3.1, fun a i j h => h3.2 a i j ?_⟩, h4⟩, h5⟩
    simp only [List.mem_cons, List.mem_range] at h ⊢
    tauto

theorem jacWeight_run {Y : Fin B → Fin k → ℝ} {J : Tensor ℝ → Prop} (hs' : size s' = k) (hs : size s = n) (hB : 0 < B)
    (hx : IsBatch x B s n X) {st : Store ℝ} {buf : Grads} (hps : L.params ⊆ ps) (hn : L.params.Nodup) (hL : L.nParams = p) (hp : totalSize sh L.params = p) (hp0 : 0 < p)
    (hc0 : Run (L.call x) st fun y st' => IsBatch y B s' k Y ∧ I st')
    (hj : ∀ st, I st → Run (L.jacobian x none .weight) st fun r st' => IsSome J r ∧ I st')
    (hc : ∀ (b : Fin B) x1 st, I st → IsBatch x1 1 s n (fun _ => X b) → Run (L.call x1) st fun y st' => y.shape = 1 :: s' ∧ I st')
    (hg : GradsRun L ag I s X G sh) (hb : ∀ i ∈ ps, buf i = none ∨ buf i = some (zeros (sh i))) :
    ∃ j st' buf', J j ∧ I st' ∧ (∀ i ∈ ps, buf' i = none ∨ buf' i = some (zeros (sh i))) ∧
      (NearMat j B k p G → jacWeight L ag x buf st = (.ok buf', st')) ∧ (¬ NearMat j B k p G → jacWeight L ag x buf st = (.error .assertion, st')) := by
  obtain ⟨y, st1, e1, hy, hI1⟩ := hc0
  obtain ⟨r, st2, e2, hJ, hI2⟩ := hj st1 hI1
  obtain ⟨j, rfl, hJ⟩ : ∃ j, r = some j ∧ J j := by
    cases r with
    | none => exact hJ.elim
    | some j => exact ⟨j, rfl, hJ⟩
  obtain ⟨t, st3, e3, ⟨ht, hb'⟩, hI3⟩ := fillWeight_run hs hs' hps hn hp hp0 hg hx hc (List.range B) (fun _ _ => False) _ buf st2 (fun o => List.mem_range.1) hI2
    (zeros_filled (G := G)) hb
  have hT := ht.mat fun b i => .inr ⟨List.mem_range.2 b.2, i.2⟩
  refine ⟨j, st3, t.2, hJ, hI3, hb', ?_⟩
  have e : jacWeight L ag x buf st = (do check j t.1; pure t.2 : Prog ℝ Grads) st3 := by
    simp only [jacWeight]
    rw [Prog.bind_ok e1]
    simp only [hx.dim0, hy.numel0 hB hs', Prog.bind_lift_ok]
    rw [Prog.bind_ok e2, if_neg (by omega), hL, Prog.bind_ok e3, Prog.need_some, Prog.bind_pure_run']
  rw [e]
  have := verdict_mat (a := j) (st := st3) hT
  exact ⟨fun h => by rw [Prog.bind_ok (this.1 h)]; rfl, fun h => Prog.bind_error (this.2 h)⟩

end
end Tests
end NNJ
