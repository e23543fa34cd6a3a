import Verif.Proofs.ConvBad
import Verif.Proofs.ConvGood
import Verif.Spec.Calls

/-! Conv2d: the vmap version and the loop version of every method agree. -/

namespace NNJ
open Tensor

/-- Both stateless calls raise, or both return, and the values are related. -/
def Sim {β : Type} (R : β → β → Prop) (r r' : Res β) : Prop := (Bad r ∧ Bad r') ∨ ∃ b b', r = .ok b ∧ r' = .ok b' ∧ R b b'

theorem Sim.bind {β γ : Type} {R : β → β → Prop} {S : γ → γ → Prop} {r r' : Res β} {f f' : β → Res γ} (h : Sim R r r')
    (hf : ∀ b b', R b b' → Sim S (f b) (f' b')) : Sim S (r >>= f) (r' >>= f') := by
  rcases h with ⟨h1, h2⟩ | ⟨b, b', rfl, rfl, hR⟩
  · exact .inl ⟨h1.bind, h2.bind⟩
  · exact hf b b' hR

theorem Sim.map {β γ : Type} {R : β → β → Prop} {S : γ → γ → Prop} {r r' : Res β} {f f' : β → γ} (h : Sim R r r')
    (hf : ∀ b b', R b b' → S (f b) (f' b')) : Sim S (f <$> r) (f' <$> r') := by
  rcases h with ⟨h1, h2⟩ | ⟨b, b', rfl, rfl, hR⟩
  · exact .inl ⟨h1.map, h2.map⟩
  · exact .inr ⟨_, _, rfl, rfl, hf b b' hR⟩

theorem Sim.mono {β : Type} {R S : β → β → Prop} {r r' : Res β} (h : Sim R r r') (hS : ∀ b b', R b b' → S b b') : Sim S r r' := by
  rcases h with h | ⟨b, b', h1, h2, hR⟩
  · exact .inl h
  · exact .inr ⟨b, b', h1, h2, hS _ _ hR⟩

theorem Sim.ret {β : Type} {R : β → β → Prop} {P : β → Prop} {r r' : Res β} (h : Ret r P) (h' : Ret r' P) (hR : ∀ b b', P b → P b' → R b b') :
    Sim R r r' := by
  obtain ⟨b, rfl, hb⟩ := h
  obtain ⟨b', rfl, hb'⟩ := h'
  exact .inr ⟨b, b', rfl, rfl, hR _ _ hb hb'⟩

theorem Sim.ok {β : Type} {R : β → β → Prop} {b b' : β} (h : R b b') : Sim R (Except.ok b) (Except.ok b') := .inr ⟨b, b', rfl, rfl, h⟩

theorem Sim.of_eq {β : Type} {R : β → β → Prop} (r : Res β) (h : ∀ b, r = .ok b → R b b) : Sim R r r := by
  cases r with
  | error e => exact .inl ⟨⟨e, rfl⟩, ⟨e, rfl⟩⟩
  | ok b => exact .inr ⟨b, b, rfl, rfl, h b rfl⟩

theorem Sim.bindSame {β γ : Type} {S : γ → γ → Prop} {r : Res β} {f f' : β → Res γ}
    (hf : ∀ b, r = .ok b → Sim S (f b) (f' b)) : Sim S (r >>= f) (r >>= f') := by
  cases r with
  | error e => exact .inl ⟨⟨e, rfl⟩, ⟨e, rfl⟩⟩
  | ok b => exact hf b rfl

theorem Bad.mapM_mem {β : Type} {f : Nat → Res β} {i : Nat} (h : Bad (f i)) : ∀ {l : List Nat}, i ∈ l → Bad (l.mapM f)
  | j :: l, hi => by
    rw [List.mapM_cons]
    rcases List.mem_cons.1 hi with rfl | hi
    · exact h.bind
    · exact Bad.bindAll fun _ _ => (Bad.mapM_mem h hi).bind

theorem Bad.foldlM_mem {γ : Type} {f : γ → Nat → Res γ} {i : Nat} (h : ∀ t, Bad (f t i)) : ∀ {l : List Nat} (z : γ), i ∈ l → Bad (l.foldlM f z)
  | j :: l, z, hi => by
    rw [List.foldlM_cons]
    rcases List.mem_cons.1 hi with rfl | hi
    · exact (h z).bind
    · exact Bad.bindAll fun t _ => Bad.foldlM_mem h t hi

/-- same entries, of the given shape -/
def TS (s : List Nat) (t t' : Tensor ℝ) : Prop := t.shape = s ∧ t'.shape = s ∧ ∀ i < size s, t.data i = t'.data i

theorem TS.get {s idx : List Nat} {t t' : Tensor ℝ} (h : TS s t t') (hi : Valid s idx) : t.get idx = t'.get idx := by
  rw [Tensor.get, Tensor.get, h.1, h.2.1]; exact h.2.2 _ (ravel_lt hi)

theorem TS.ofFn {s : List Nat} {f g : List Nat → ℝ} (h : ∀ idx, Valid s idx → f idx = g idx) : TS s (ofFn s f) (ofFn s g) :=
  ⟨rfl, rfl, fun i hi => h _ (unravel_valid hi)⟩

theorem TS.of_get {s : List Nat} {t t' : Tensor ℝ} (h1 : t.shape = s) (h2 : t'.shape = s) (h : ∀ idx, Valid s idx → t.get idx = t'.get idx) : TS s t t' := by
  refine ⟨h1, h2, fun i hi => ?_⟩
  have := h _ (unravel_valid hi)
  rwa [Tensor.get, Tensor.get, h1, h2, ravel_unravel hi] at this

theorem TS.refl {s : List Nat} {t : Tensor ℝ} (h : t.shape = s) : TS s t t := ⟨h, h, fun _ _ => rfl⟩

theorem valid2 {a b : Nat} {idx : List Nat} (h : Valid [a, b] idx) : ∃ i j, idx = [i, j] ∧ i < a ∧ j < b := by
  match idx, h with
  | [i, j], h => simp at h; exact ⟨i, j, rfl, h⟩
theorem valid3 {a b c : Nat} {idx : List Nat} (h : Valid [a, b, c] idx) : ∃ i j k, idx = [i, j, k] ∧ i < a ∧ j < b ∧ k < c := by
  match idx, h with
  | [i, j, k], h => simp at h; exact ⟨i, j, k, rfl, h⟩
theorem valid4 {a b c d : Nat} {idx : List Nat} (h : Valid [a, b, c, d] idx) : ∃ i j k l, idx = [i, j, k, l] ∧ i < a ∧ j < b ∧ k < c ∧ l < d := by
  match idx, h with
  | [i, j, k, l], h => simp at h; exact ⟨i, j, k, l, rfl, h⟩
theorem valid5 {a b c d e : Nat} {idx : List Nat} (h : Valid [a, b, c, d, e] idx) :
    ∃ i j k l m, idx = [i, j, k, l, m] ∧ i < a ∧ j < b ∧ k < c ∧ l < d ∧ m < e := by
  match idx, h with
  | [i, j, k, l, m], h => simp at h; exact ⟨i, j, k, l, m, rfl, h⟩

section
variable {t t' : Tensor ℝ} {a b c d e : Nat}

theorem N2.ts {F} (h : N2 t a b F) (h' : N2 t' a b F) : TS [a, b] t t' := TS.of_get h.1 h'.1 fun _ hi => by
  obtain ⟨i, j, rfl, h1, h2⟩ := valid2 hi
  rw [h.2 i j h1 h2, h'.2 i j h1 h2]
theorem N3.ts {F} (h : N3 t a b c F) (h' : N3 t' a b c F) : TS [a, b, c] t t' := TS.of_get h.1 h'.1 fun idx hi => by
  obtain ⟨i, j, k, rfl, h1, h2, h3⟩ := valid3 hi
  rw [h.2 i j k h1 h2 h3, h'.2 i j k h1 h2 h3]
theorem N4.ts {F} (h : N4 t a b c d F) (h' : N4 t' a b c d F) : TS [a, b, c, d] t t' := TS.of_get h.1 h'.1 fun idx hi => by
  obtain ⟨i, j, k, l, rfl, h1, h2, h3, h4⟩ := valid4 hi
  rw [h.2 i j k l h1 h2 h3 h4, h'.2 i j k l h1 h2 h3 h4]
theorem N5.ts {F} (h : N5 t a b c d e F) (h' : N5 t' a b c d e F) : TS [a, b, c, d, e] t t' := TS.of_get h.1 h'.1 fun idx hi => by
  obtain ⟨i, j, k, l, m, rfl, h1, h2, h3, h4, h5⟩ := valid5 hi
  rw [h.2 i j k l m h1 h2 h3 h4 h5, h'.2 i j k l m h1 h2 h3 h4 h5]

theorem TS.n2 (h : TS [a, b] t t') : N2 t a b (fun i j => t.get [i, j]) ∧ N2 t' a b (fun i j => t.get [i, j]) :=
  ⟨⟨h.1, fun _ _ _ _ => rfl⟩, h.2.1, fun _ _ h1 h2 => (h.get (by simp [*])).symm⟩
theorem TS.n3 (h : TS [a, b, c] t t') : N3 t a b c (fun i j k => t.get [i, j, k]) ∧ N3 t' a b c (fun i j k => t.get [i, j, k]) :=
  ⟨⟨h.1, fun _ _ _ _ _ _ => rfl⟩, h.2.1, fun i j k h1 h2 h3 => (h.get (by simp [*])).symm⟩
theorem TS.n4 (h : TS [a, b, c, d] t t') :
    N4 t a b c d (fun i j k l => t.get [i, j, k, l]) ∧ N4 t' a b c d (fun i j k l => t.get [i, j, k, l]) :=
  ⟨⟨h.1, fun _ _ _ _ _ _ _ _ => rfl⟩, h.2.1, fun i j k l h1 h2 h3 h4 => (h.get (by simp [*])).symm⟩
theorem TS.n5 (h : TS [a, b, c, d, e] t t') :
    N5 t a b c d e (fun i j k l m => t.get [i, j, k, l, m]) ∧ N5 t' a b c d e (fun i j k l m => t.get [i, j, k, l, m]) :=
  ⟨⟨h.1, fun _ _ _ _ _ _ _ _ _ _ => rfl⟩, h.2.1, fun i j k l m h1 h2 h3 h4 h5 => (h.get (by simp [*])).symm⟩

end

theorem TS.reshape {s s' : List Nat} {t t' : Tensor ℝ} (h : TS s t t') : Sim (TS s') (t.reshape s') (t'.reshape s') := by
  simp only [Tensor.reshape, Tensor.numel, h.1, h.2.1]
  split
  · rename_i e
    exact Sim.ok ⟨rfl, rfl, fun i hi => h.2.2 i (e ▸ hi)⟩
  · exact .inl ⟨⟨_, rfl⟩, ⟨_, rfl⟩⟩

theorem TS.reshapeInfer {s pre post : List Nat} {t t' : Tensor ℝ} (h : TS s t t') :
    Sim (fun u u' => ∃ q, TS (pre ++ q :: post) u u') (t.reshapeInfer pre post) (t'.reshapeInfer pre post) := by
  simp only [Tensor.reshapeInfer, Tensor.numel, h.1, h.2.1]
  split
  · exact .inl ⟨⟨_, rfl⟩, ⟨_, rfl⟩⟩
  · rename_i hk
    split
    · rename_i e
      refine Sim.ok ⟨size s / (size pre * size post), rfl, rfl, fun i hi => h.2.2 i ?_⟩
      have : size (pre ++ size s / (size pre * size post) :: post) = size s := by
        rw [size_append, size_cons]
        calc size pre * (size s / (size pre * size post) * size post) = size s / (size pre * size post) * (size pre * size post) := by ring
          _ = size s := Nat.div_mul_cancel (Nat.dvd_of_mod_eq_zero e)
      rwa [this] at hi
    · exact .inl ⟨⟨_, rfl⟩, ⟨_, rfl⟩⟩

theorem TS.conv2d {x x' W W' : Tensor ℝ} {n ci h w co cg kh kw : Nat} {a : Torch.ConvArgs} (hx : TS [n, ci, h, w] x x')
    (hW : TS [co, cg, kh, kw] W W') (hg : a.groups = 1) :
    Sim (fun r r' => ∃ oh ow, TS [n, co, oh, ow] r r') (Torch.conv2d x W none a) (Torch.conv2d x' W' none a) := by
  simp only [Torch.conv2d, hx.1, hx.2.1, hW.1, hW.2.1, hg]
  split
  · exact .inl ⟨⟨_, rfl⟩, ⟨_, rfl⟩⟩
  split
  · exact .inl ⟨⟨_, rfl⟩, ⟨_, rfl⟩⟩
  split
  · exact .inl ⟨⟨_, rfl⟩, ⟨_, rfl⟩⟩
  rename_i hcg
  simp only [Nat.mul_one, Nat.mod_one, and_true, Classical.not_not] at hcg
  split
  · exact .inl ⟨⟨_, rfl⟩, ⟨_, rfl⟩⟩
  split
  · exact .inl ⟨⟨_, rfl⟩, ⟨_, rfl⟩⟩
  refine Sim.ok ⟨_, _, TS.ofFn fun idx hi => ?_⟩
  obtain ⟨i, o, y, z, rfl, h1, h2, h3, h4⟩ := valid4 hi
  simp only [List.getD_cons_zero, List.getD_cons_succ, Nat.div_one]
  refine sumRange_congr fun c hc => sumRange_congr fun u hu => sumRange_congr fun v hv => ?_
  rw [hW.get (idx := [o, c, u, v]) (by simp [h2, hc, hu, hv])]
  congr 1
  refine padGet_congr (fun yy zz hy hz => hx.get ?_) _ _
  rw [Nat.div_eq_of_lt h2, Nat.zero_mul, Nat.zero_add]
  have hc' : c < ci := hcg ▸ hc
  simp [h1, hc', hy, hz]

theorem valid_set_lt : ∀ {s idx : List Nat} {d m k : Nat}, s[d]? = some m → Valid (s.set d k) idx → idx.getD d 0 < m → Valid s idx
  | n :: s, [], d, m, k, hs, hv, hi => by cases d <;> simp [Valid] at hv
  | n :: s, i :: is, 0, m, k, hs, hv, hi => by
    simp only [List.getElem?_cons_zero, Option.some.injEq] at hs
    simp only [List.set, valid_cons, List.getD_cons_zero] at *
    exact ⟨hs ▸ hi, hv.2⟩
  | n :: s, i :: is, d + 1, m, k, hs, hv, hi => by
    simp only [List.getElem?_cons_succ] at hs
    simp only [List.set, valid_cons, List.getD_cons_succ] at *
    exact ⟨hv.1, valid_set_lt hs hv.2 hi⟩

theorem valid_set_ge : ∀ {s s' idx : List Nat} {d m n : Nat}, s[d]? = some m → s'[d]? = some n → s.set d 0 = s'.set d 0 →
    Valid (s.set d (m + n)) idx → ¬ idx.getD d 0 < m → Valid s' (idx.set d (idx.getD d 0 - m))
  | _ :: s, _ :: s', [], d, m, n, hs, hs', he, hv, hi => by cases d <;> simp [Valid] at hv
  | _ :: s, _ :: s', i :: is, 0, m, n, hs, hs', he, hv, hi => by
    simp only [List.getElem?_cons_zero, Option.some.injEq] at hs hs'
    simp only [List.set, valid_cons, List.getD_cons_zero, List.cons.injEq, true_and] at *
    subst hs' he
    exact ⟨by omega, hv.2⟩
  | _ :: s, _ :: s', i :: is, d + 1, m, n, hs, hs', he, hv, hi => by
    simp only [List.getElem?_cons_succ] at hs hs'
    simp only [List.set, valid_cons, List.getD_cons_succ, List.cons.injEq] at *
    exact ⟨he.1 ▸ hv.1, valid_set_ge hs hs' he.2 hv.2 hi⟩

theorem TS.cat2 {s1 s2 : List Nat} {a a' b b' : Tensor ℝ} {d m n : Nat} (ha : TS s1 a a') (hb : TS s2 b b') (h1 : s1[d]? = some m)
    (h2 : s2[d]? = some n) : Sim (TS (s1.set d (m + n))) (cat2 a b d) (cat2 a' b' d) := by
  simp only [Tensor.cat2, ha.1, ha.2.1, hb.1, hb.2.1, h1, h2]
  split
  · rename_i he
    refine Sim.ok (TS.ofFn fun idx hi => ?_)
    split
    · rename_i hlt
      exact ha.get (valid_set_lt h1 hi hlt)
    · rename_i hlt
      exact hb.get (valid_set_ge h1 h2 he hi hlt)
  · exact .inl ⟨⟨_, rfl⟩, ⟨_, rfl⟩⟩

theorem TS.diagonal12 {a b c : Nat} {t t' : Tensor ℝ} (h : TS [a, b, c] t t') : Sim (TS [a, min b c]) t.diagonal12 t'.diagonal12 := by
  simp only [Tensor.diagonal12, h.1, h.2.1]
  refine Sim.ok (TS.ofFn fun idx hi => ?_)
  obtain ⟨i, j, rfl, h1, h2⟩ := valid2 hi
  exact h.get (by simp; omega)

/-- vmap over the batch and the loop over the batch, sample by sample -/
theorem vmap_fill {f : Tensor ℝ → Tensor ℝ → Res (Tensor ℝ)} {g : Nat → Res (Tensor ℝ)} {x y : Tensor ℝ} {n : Nat} {s1 s2 s : List Nat} (hn : 0 < n)
    (hx : x.shape = n :: s1) (hy : y.shape = n :: s2)
    (h : ∀ i, i < n → Sim (TS s) (x.select0 i >>= fun a => y.select0 i >>= fun b => f a b) (g i)) :
    Sim (TS (n :: s)) (vmap2 f x y) (Conv2d.fillRows g n (zeros (n :: s))) := by
  by_cases hb : ∃ i, i < n ∧ Bad (g i)
  · obtain ⟨i, hi, hg⟩ := hb
    have hv : Bad (x.select0 i >>= fun a => y.select0 i >>= fun b => f a b) := by
      rcases h i hi with h | ⟨_, b', _, h2, _⟩
      · exact h.1
      · obtain ⟨e, he⟩ := hg
        rw [he] at h2; cases h2
    refine .inl ⟨?_, Bad.foldlM_mem (fun t => hg.bind) _ (List.mem_range.2 hi)⟩
    have e1 : x.dim 0 = .ok n := by simp [Tensor.dim, hx]
    have e2 : y.dim 0 = .ok n := by simp [Tensor.dim, hy]
    simp only [vmap2, e1, e2, Res.bind_ok, if_true]
    exact (Bad.mapM_mem (f := fun i => do let a ← x.select0 i; let b ← y.select0 i; f a b) hv (List.mem_range.2 hi)).bind
  · have hok : ∀ i, i < n → ∃ b, g i = .ok b ∧ b.shape = s ∧ ∃ b', (x.select0 i >>= fun a => y.select0 i >>= fun b => f a b) = .ok b' ∧ TS s b' b := by
      intro i hi
      rcases h i hi with h | ⟨b, b', h1, h2, h3⟩
      · exact (hb ⟨i, hi, h.2⟩).elim
      · exact ⟨b', h2, h3.2.1, b, h1, h3⟩
    have : Nonempty (Tensor ℝ) := ⟨⟨[], fun _ => 0⟩⟩
    choose! R h1 h2 R' h3 h4 using hok
    refine Sim.ret (P := fun r => r.shape = n :: s ∧ ∀ i k, i < n → k < size s → r.data (i * size s + k) = (R i).data k)
      (vmap2_spec hn hx hy fun i hi => ⟨R' i, h3 i hi, (h4 i hi).1, fun k hk => (h4 i hi).2.2 k hk⟩)
      (Conv2d.fillRows_spec rfl fun i hi => ⟨R i, h1 i hi, h2 i hi, fun k _ => rfl⟩) ?_
    rintro r r' ⟨e1, e2⟩ ⟨e3, e4⟩
    refine ⟨e1, e3, fun p hp => ?_⟩
    rw [size_cons] at hp
    obtain ⟨i, k, hi, hk, rfl⟩ := exists_pair hp
    rw [e2 i k hi hk, e4 i k hi hk]

namespace Conv2d

/-- the same layer with `use_vmap_for_backprop` set to `u` -/
def Cfg.vm (c : Cfg) (u : Bool) : Cfg := { c with useVmap := u }

section
variable {cfg : Cfg} {b c1 c2 h1 w1 h2 w2 rows : Nat} {x v m m' r r' : Tensor ℝ}

theorem vjpSingle_sim (hg : cfg.groups = 1) (hm : TS [c2, 1, h2, w2] m m') (hr : TS [c1, 1, h1, w1] r r') :
    Sim (TS [c2 * c1 * cfg.kernel.1 * cfg.kernel.2]) (vjpSingle cfg c1 c2 h2 w2 m r) (vjpSingle cfg c1 c2 h2 w2 m' r') := by
  refine hm.reshapeInfer.bind fun v v' ⟨q, hv⟩ => (TS.conv2d hv hr hg).bind fun u u' ⟨_, _, hu⟩ => hu.reshape

theorem mjpSingle_sim (hg : cfg.groups = 1) (hm : TS [c2, 1, h2, w2, rows] m m') (hr : TS [c1, 1, h1, w1] r r') :
    Sim (TS [c2 * c1 * cfg.kernel.1 * cfg.kernel.2, rows]) (mjpSingle cfg c1 c2 h2 w2 rows m r) (mjpSingle cfg c1 c2 h2 w2 rows m' r') := by
  refine (Sim.ret (movedim_5_last hm.n5.1) (movedim_5_last hm.n5.2) fun _ _ => N5.ts).bind fun v v' hv => ?_
  refine hv.reshapeInfer.bind fun v v' ⟨q, hv⟩ => (TS.conv2d hv hr hg).bind fun u u' ⟨_, _, hu⟩ => hu.reshape.bind fun u u' hu => ?_
  refine (Sim.ret (movedim_5_back hu.n5.1) (movedim_5_back hu.n5.2) fun _ _ => N5.ts).bind fun v v' hv => hv.reshape

theorem weightDiagSingle_sim (hg : cfg.groups = 1) (hm : TS [c2, 1, h2, w2] m m') (hr : TS [c1, 1, h1, w1] r r') :
    Sim (TS [c2 * c1 * cfg.kernel.1 * cfg.kernel.2]) (weightDiagSingle cfg c1 c2 h2 w2 m r) (weightDiagSingle cfg c1 c2 h2 w2 m' r') := by
  refine (Sim.ret (movedim_4_last hm.n4.1) (movedim_4_last hm.n4.2) fun _ _ => N4.ts).bind fun v v' hv => ?_
  refine hv.reshapeInfer.bind fun v v' ⟨q, hv⟩ => (TS.conv2d hv hr hg).bind fun u u' ⟨_, _, hu⟩ => hu.reshape.bind fun u u' hu => ?_
  refine (Sim.ret (movedim_4_back hu.n4.1) (movedim_4_back hu.n4.2) fun _ _ => N4.ts).bind fun v v' hv => ?_
  refine (Sim.ret (flip_4_01 hv.n4.1) (flip_4_01 hv.n4.2) fun _ _ => N4.ts).bind fun v v' hv => hv.reshape

/-- rows of the weight Jacobian: kernel and bias -/
def nRows (cfg : Cfg) (bias : Option (Tensor ℝ)) (c1 c2 : Nat) : Nat :=
  c2 * c1 * cfg.kernel.1 * cfg.kernel.2 + if bias.isSome then c2 else 0

theorem sum_chw {t t' : Tensor ℝ} {a b c d : Nat} (h : TS [a, b, c, d] t t') :
    Sim (TS [a, d]) (einsum% "chwv->cv" [t]) (einsum% "chwv->cv" [t']) := by
  have key : ∀ u : Tensor ℝ, N4 u a b c d (fun i j k l => t.get [i, j, k, l]) → Ret (einsum% "chwv->cv" [u]) fun e =>
      N2 e a d fun i l => ∑ j : Fin b, ∑ k : Fin c, t.get [i, j, k, l] := by
    intro u hu
    refine Ret.mono (P := fun e => M2 e a d fun i l => ∑ j : Fin b, ∑ k : Fin c, t.get [i, j, k, l]) ?_ fun e he => ⟨he.1, fun i j hi hj => he.2 ⟨i, hi⟩ ⟨j, hj⟩⟩
    ein [('c', a), ('h', b), ('w', c), ('v', d)] [hu.1, hu.2]
  exact Sim.ret (key t h.n4.1) (key t' h.n4.2) fun _ _ => N2.ts

theorem weightPassTail_sim (bias : Option (Tensor ℝ)) (hg : cfg.groups = 1) (hm : TS [1, c2, h2, w2, rows] m m') (hr : TS [c1, 1, h1, w1] r r') :
    Sim (TS [nRows cfg bias c1 c2, rows]) (weightPassTail cfg bias c1 c2 h2 w2 rows m r) (weightPassTail cfg bias c1 c2 h2 w2 rows m' r') := by
  refine (Sim.ret (flip_5_23 hm.n5.1) (flip_5_23 hm.n5.2) fun _ _ => N5.ts).bind fun v v' hv => ?_
  refine (Sim.ret (movedim_5_01 hv.n5.1) (movedim_5_01 hv.n5.2) fun _ _ => N5.ts).bind fun v v' hv => ?_
  refine (mjpSingle_sim hg hv hr).bind fun u u' hu => ?_
  cases bias with
  | none => exact Sim.ok hu
  | some bt =>
    refine Sim.bind (R := TS [c2, h2, w2, rows]) ?_ fun w w' hw => ?_
    · by_cases hz : c2 * h2 * w2 = 0
      · have z : size [c2, h2, w2] * size ([] : List Nat) = 0 := by simpa [size_cons, mul_assoc] using hz
        refine .inl ⟨⟨.shape, ?_⟩, ⟨.shape, ?_⟩⟩ <;> simp only [Tensor.reshapeInfer, z, if_true]
      · have z : size [c2, h2, w2] * size ([] : List Nat) = c2 * h2 * w2 := by simp [size_cons, mul_assoc]
        have n : size [c2, 1, h2, w2, rows] = rows * (c2 * h2 * w2) := by simp only [size_cons, size_nil]; ring
        have n' : size [c2, h2, w2, rows] = rows * (c2 * h2 * w2) := by simp only [size_cons, size_nil]; ring
        simp only [Tensor.reshapeInfer, Tensor.numel, hv.1, hv.2.1, z, n, if_neg hz, Nat.mul_mod_left, if_true,
          Nat.mul_div_cancel _ (Nat.pos_of_ne_zero hz)]
        exact Sim.ok ⟨rfl, rfl, fun i hi => hv.2.2 i (by rw [n]; exact n' ▸ hi)⟩
    · exact (sum_chw hw).bind fun e e' he => hu.cat2 (n := c2) he rfl rfl

theorem weightSandwich_sim (bias : Option (Tensor ℝ)) (hg : cfg.groups = 1) (hz : 0 < c2 * h2 * w2) {p q : Nat} (hm : TS [1, p, q] m m')
    (hr : TS [c1, 1, h1, w1] r r') :
    Sim (TS [cfg.nParams, cfg.nParams]) (weightSandwich cfg bias c1 c2 h2 w2 m r) (weightSandwich cfg bias c1 c2 h2 w2 m' r') := by
  refine Sim.bind (R := TS [nRows cfg bias c1 c2, c2 * h2 * w2]) ?_ fun u u' hu => ?_
  · refine (Sim.ret (movedim_3_swap hm.n3.1) (movedim_3_swap hm.n3.2) fun _ _ => N3.ts).bind fun v v' hv => ?_
    exact hv.reshape.bind fun v v' hv => weightPassTail_sim bias hg hv hr
  · refine (Sim.ret (movedim_2_swap hu.n2.1) (movedim_2_swap hu.n2.2) fun _ _ => N2.ts).bind fun v v' hv => ?_
    by_cases e : nRows cfg bias c1 c2 = cfg.nParams
    · refine hv.reshape.bind fun v v' hv => ?_
      have := weightPassTail_sim bias hg hv hr
      rwa [e] at this
    · have ne : ¬ size [1, c2, h2, w2, cfg.nParams] = size [c2 * h2 * w2, nRows cfg bias c1 c2] := by
        simp only [size_cons, size_nil, mul_one, one_mul]
        intro h
        apply e
        have : c2 * h2 * w2 * nRows cfg bias c1 c2 = c2 * h2 * w2 * cfg.nParams := by rw [← h]; ring
        exact Nat.eq_of_mul_eq_mul_left hz this
      refine .inl ⟨Bad.bind ⟨.shape, ?_⟩, Bad.bind ⟨.shape, ?_⟩⟩ <;> simp only [Tensor.reshape, Tensor.numel, hv.1, hv.2.1, if_neg ne]

/-! ### one sample: `x[i]` with a new dimension against `x[i:i+1]` -/

theorem head_sim {xf : Tensor ℝ} {s2 : List Nat} {i : Nat} {f : Tensor ℝ → Tensor ℝ → Res (Tensor ℝ)} {g : Res (Tensor ℝ)} {R : Tensor ℝ → Tensor ℝ → Prop}
    {F : Nat → Nat → Nat → Nat → ℝ} (hx : N4 xf b c1 h1 w1 F) (hv : v.shape = b :: s2) (hi : i < b)
    (h : ∀ xi vi, N4 xi c1 1 h1 w1 (fun j _ k l => F i j k l) → v.select0 i = .ok vi → Sim R (f xi vi) g) :
    Sim R (xf.select0 i >>= fun a => v.select0 i >>= fun b => do
      let a ← a.unsqueeze 0
      let a ← a.movedim [0] [1]
      f a b) g := by
  obtain ⟨x1, e1, _⟩ := select0_ret hx.1 hi
  obtain ⟨m1, e2, _⟩ := select0_ret hv hi
  obtain ⟨x2, e3, h3⟩ := selectUnsq_4 hx hi
  obtain ⟨x3, e4, h4⟩ := movedim_4_01 h3
  rw [e1] at e3 ⊢
  rw [e2]
  simp only [Res.bind_ok] at e3 ⊢
  rw [e3]
  simp only [Res.bind_ok]
  rw [e4]
  exact h x3 m1 h4 e2

theorem head_sim' {xf : Tensor ℝ} {s2 : List Nat} {i : Nat} {f : Tensor ℝ → Tensor ℝ → Res (Tensor ℝ)} {g : Res (Tensor ℝ)} {R : Tensor ℝ → Tensor ℝ → Prop}
    {F : Nat → Nat → Nat → Nat → ℝ} (hx : N4 xf b c1 h1 w1 F) (hv : v.shape = b :: s2) (hi : i < b)
    (h : ∀ xi vi, N4 xi c1 1 h1 w1 (fun j _ k l => F i j (h1 - 1 - k) (w1 - 1 - l)) → v.select0 i = .ok vi → Sim R (f xi vi) g) :
    Sim R (xf.select0 i >>= fun a => v.select0 i >>= fun b => do
      let a ← a.unsqueeze 0
      let a ← a.flip [-2, -1]
      let a ← a.movedim [0] [1]
      f a b) g := by
  obtain ⟨x1, e1, _⟩ := select0_ret hx.1 hi
  obtain ⟨m1, e2, _⟩ := select0_ret hv hi
  obtain ⟨x2, e3, h3⟩ := selectUnsq_4 hx hi
  obtain ⟨x3, e4, h4⟩ := flip_4_hw h3
  obtain ⟨x4, e5, h5⟩ := movedim_4_01 h4
  rw [e1] at e3 ⊢
  rw [e2]
  simp only [Res.bind_ok] at e3 ⊢
  rw [e3]
  simp only [Res.bind_ok]
  rw [e4]
  simp only [Res.bind_ok]
  rw [e5]
  exact h x4 m1 h5 e2

theorem Sim.bindRet {β γ : Type} {S : γ → γ → Prop} {q : Res γ} {r : Res β} {P : β → Prop} {f : β → Res γ} (hr : Ret r P)
    (hf : ∀ b, P b → Sim S q (f b)) : Sim S q (r >>= f) := by
  obtain ⟨b, rfl, hb⟩ := hr
  exact hf b hb

theorem Sim.bindRetL {β γ : Type} {S : γ → γ → Prop} {q : Res γ} {r : Res β} {P : β → Prop} {f : β → Res γ} (hr : Ret r P)
    (hf : ∀ b, P b → Sim S (f b) q) : Sim S (r >>= f) q := by
  obtain ⟨b, rfl, hb⟩ := hr
  exact hf b hb

theorem shape_n4 {t : Tensor ℝ} {a b c d : Nat} (h : t.shape = [a, b, c, d]) : N4 t a b c d fun i j k l => t.get [i, j, k, l] := ⟨h, fun _ _ _ _ _ _ _ _ => rfl⟩
theorem shape_n5 {t : Tensor ℝ} {a b c d e : Nat} (h : t.shape = [a, b, c, d, e]) : N5 t a b c d e fun i j k l m => t.get [i, j, k, l, m] :=
  ⟨h, fun _ _ _ _ _ _ _ _ _ _ => rfl⟩
theorem shape_n3 {t : Tensor ℝ} {a b c : Nat} (h : t.shape = [a, b, c]) : N3 t a b c fun i j k => t.get [i, j, k] := ⟨h, fun _ _ _ _ _ _ => rfl⟩

theorem vjpKernel_sim (hg : cfg.groups = 1) (hb : 0 < b) (hx : x.shape = [b, c1, h1, w1]) (hv : v.shape = [b, c2, h2, w2]) :
    Sim (TS [b, c2 * c1 * cfg.kernel.1 * cfg.kernel.2]) (vjpKernel (cfg.vm true) x b c1 c2 h2 w2 v) (vjpKernel (cfg.vm false) x b c1 c2 h2 w2 v) := by
  refine Sim.bindRetL (flip_4_hw (shape_n4 hx)) fun xf hxf => Sim.bindRet (movedim_4_01 (shape_n4 hv)) fun v1 hv1 => ?_
  refine vmap_fill hb hxf.1 hv fun i hi => ?_
  refine head_sim hxf hv hi fun xi vi hxi hvi => ?_
  refine Sim.bindRet (slice_4_0 (shape_n4 hx) hi) fun x1 hx1 => Sim.bindRet (flip_4_hw hx1) fun x2 hx2 => Sim.bindRet (movedim_4_01 hx2) fun x3 hx3 => ?_
  refine Sim.bindRet (slice_4_1 hv1 hi) fun v2 hv2 => ?_
  obtain ⟨m2, e3, h3⟩ := selectUnsq_4 (shape_n4 hv) hi
  rw [hvi] at e3
  simp only [Res.bind_ok] at e3
  rw [e3]
  simp only [Res.bind_ok]
  refine Sim.bindRetL (movedim_4_01 h3) fun m3 h4 => ?_
  exact vjpSingle_sim (cfg := cfg) hg (h4.ts hv2) (hxi.ts hx3)

theorem mjpKernel_sim (hg : cfg.groups = 1) (hb : 0 < b) (hx : x.shape = [b, c1, h1, w1]) (hv : v.shape = [b, c2, h2, w2, rows]) :
    Sim (TS [b, c2 * c1 * cfg.kernel.1 * cfg.kernel.2, rows]) (mjpKernel (cfg.vm true) x b c1 c2 h2 w2 rows v)
      (mjpKernel (cfg.vm false) x b c1 c2 h2 w2 rows v) := by
  refine Sim.bindRetL (flip_4_hw (shape_n4 hx)) fun xf hxf => Sim.bindRet (movedim_5_01 (shape_n5 hv)) fun v1 hv1 => ?_
  refine vmap_fill hb hxf.1 hv fun i hi => ?_
  refine head_sim hxf hv hi fun xi vi hxi hvi => ?_
  refine Sim.bindRet (slice_4_0 (shape_n4 hx) hi) fun x1 hx1 => Sim.bindRet (flip_4_hw hx1) fun x2 hx2 => Sim.bindRet (movedim_4_01 hx2) fun x3 hx3 => ?_
  refine Sim.bindRet (slice_5_1 hv1 hi) fun v2 hv2 => ?_
  obtain ⟨m2, e3, h3⟩ := selectUnsq_5 (shape_n5 hv) hi
  rw [hvi] at e3
  simp only [Res.bind_ok] at e3
  rw [e3]
  simp only [Res.bind_ok]
  refine Sim.bindRetL (movedim_5_01 h3) fun m3 h4 => ?_
  exact mjpSingle_sim (cfg := cfg) hg (h4.ts hv2) (hxi.ts hx3)

theorem weightDiagKernel_sim (hg : cfg.groups = 1) (hb : 0 < b) (hx : x.shape = [b, c1, h1, w1]) (hv : v.shape = [b, c2, h2, w2]) :
    Sim (TS [b, c2 * c1 * cfg.kernel.1 * cfg.kernel.2]) (weightDiagKernel (cfg.vm true) b c1 c2 h2 w2 x v)
      (weightDiagKernel (cfg.vm false) b c1 c2 h2 w2 x v) := by
  refine Sim.bindRet (movedim_4_01 (shape_n4 hv)) fun v1 hv1 => Sim.bindRet (movedim_4_01 (shape_n4 hx)) fun x1 hx1 => ?_
  refine vmap_fill hb hx hv fun i hi => ?_
  refine head_sim (shape_n4 hx) hv hi fun xi vi hxi hvi => ?_
  refine Sim.bindRet (slice_4_1 hx1 hi) fun x2 hx2 => Sim.bindRet (slice_4_1 hv1 hi) fun v2 hv2 => ?_
  obtain ⟨m2, e3, h3⟩ := selectUnsq_4 (shape_n4 hv) hi
  rw [hvi] at e3
  simp only [Res.bind_ok] at e3
  rw [e3]
  simp only [Res.bind_ok]
  refine Sim.bindRetL (movedim_4_01 h3) fun m3 h4 => ?_
  exact weightDiagSingle_sim (cfg := cfg) hg (h4.ts hv2) (hxi.ts hx2)

/-! ### the methods -/

/-- an optional tensor, same entries -/
def OEq : Option (Tensor ℝ) → Option (Tensor ℝ) → Prop
  | none, none => True
  | some t, some t' => TS t.shape t t'
  | _, _ => False

theorem OEq.refl (o : Option (Tensor ℝ)) : OEq o o := by
  cases o with
  | none => trivial
  | some t => exact TS.refl rfl

theorem _root_.NNJ.TS.oeq {s : List Nat} {t t' : Tensor ℝ} (h : TS s t t') : OEq (some t) (some t') := by
  show TS t.shape t t'
  rw [h.1]; exact h

theorem dims4_shape {t : Tensor ℝ} {d : Nat × Nat × Nat × Nat} (h : t.dims4 = .ok d) : t.shape = [d.1, d.2.1, d.2.2.1, d.2.2.2] := by
  unfold dims4 at h
  split at h
  · rename_i a b c e hs
    cases h; exact hs
  · cases h

theorem reshape_shape {t u : Tensor ℝ} {s : List Nat} (h : t.reshape s = .ok u) : u.shape = s := by
  simp only [Tensor.reshape] at h
  split at h
  · cases h; rfl
  · cases h

theorem assertR_of {p : Prop} [Decidable p] {u : Unit} (h : assertR p = .ok u) : p := by
  simp only [assertR] at h
  split at h
  · rename_i hp; exact of_decide_eq_true hp
  · cases h

theorem cat2_same {s : List Nat} {t t' : Tensor ℝ} (h : TS s t t') (u : Tensor ℝ) (d : Nat) : Sim OEq (some <$> cat2 t u d) (some <$> cat2 t' u d) := by
  cases h1 : s[d]? with
  | none => exact .inl ⟨Bad.map ⟨.index, by simp only [Tensor.cat2, h.1, h1]⟩, Bad.map ⟨.index, by simp only [Tensor.cat2, h.2.1, h1]⟩⟩
  | some m =>
    cases h2 : u.shape[d]? with
    | none => exact .inl ⟨Bad.map ⟨.index, by simp only [Tensor.cat2, h.1, h1, h2]⟩, Bad.map ⟨.index, by simp only [Tensor.cat2, h.2.1, h1, h2]⟩⟩
    | some n => exact (h.cat2 (TS.refl rfl) h1 h2).map fun _ _ h => h.oeq

variable {W : Tensor ℝ} {bias val : Option (Tensor ℝ)}

theorem vjp_sim (hg : cfg.groups = 1) (hx : x.shape.head? ≠ some 0) (vec : Tensor ℝ) (wrt : Wrt) :
    Sim OEq (vjp (cfg.vm true) W bias x val vec wrt) (vjp (cfg.vm false) W bias x val vec wrt) := by
  refine Sim.bindSame (r := getVal cfg W bias x val) fun v _ => Sim.bindSame fun d hd => Sim.bindSame fun d' hd' => Sim.bindSame fun _ _ => ?_
  have hb := dims4_pos hx hd
  have hs := dims4_shape hd
  obtain ⟨b, c1, h1, w1⟩ := d
  obtain ⟨_, c2, h2, w2⟩ := d'
  cases wrt with
  | input => exact Sim.of_eq _ fun _ _ => OEq.refl _
  | other => exact Sim.of_eq _ fun _ _ => OEq.refl _
  | weight =>
    refine Sim.bindSame fun v0 e0 => Sim.bindSame fun v1 e1 => ?_
    obtain ⟨_, e2, hv1⟩ := flip_4_hw (shape_n4 (reshape_shape e0))
    rw [e2] at e1; cases e1
    refine (vjpKernel_sim hg hb hs hv1.1).bind fun r r' hr => ?_
    cases bias with
    | none => exact Sim.ok hr.oeq
    | some bt => exact Sim.bindSame fun e _ => cat2_same hr e 1

theorem mjpSome_sim (hg : cfg.groups = 1) (hx : x.shape.head? ≠ some 0) (v mat : Tensor ℝ) (wrt : Wrt) :
    Sim OEq (mjpSome (cfg.vm true) W bias x v mat wrt) (mjpSome (cfg.vm false) W bias x v mat wrt) := by
  refine Sim.bindSame fun d hd => Sim.bindSame fun d' hd' => Sim.bindSame fun rows _ => Sim.bindSame fun _ ha => ?_
  have hb := dims4_pos hx hd
  have hs := dims4_shape hd
  have hm := assertR_of ha
  obtain ⟨b, c1, h1, w1⟩ := d
  obtain ⟨_, c2, h2, w2⟩ := d'
  cases wrt with
  | input => exact Sim.of_eq _ fun _ _ => OEq.refl _
  | other => exact Sim.of_eq _ fun _ _ => OEq.refl _
  | weight =>
    refine Sim.bindSame fun v0 e0 => Sim.bindSame fun v1 e1 => Sim.bindSame fun v2 e2 => ?_
    obtain ⟨_, e3, hv2⟩ := flip_5_23 (shape_n5 (reshape_shape e1))
    rw [e3] at e2; cases e2
    refine (mjpKernel_sim hg hb hs hv2.1).bind fun r r' hr => ?_
    refine (Sim.ret (movedim_3_swap hr.n3.1) (movedim_3_swap hr.n3.2) fun _ _ => N3.ts).bind fun u u' hu => ?_
    cases bias with
    | none => exact Sim.ok hu.oeq
    | some bt => exact Sim.bindSame fun _ _ => Sim.bindSame fun e _ => cat2_same hu e 2

theorem jacobian_sim (hg : cfg.groups = 1) (hx : x.shape.head? ≠ some 0) (wrt : Wrt) :
    Sim OEq (jacobian (cfg.vm true) W bias x val wrt) (jacobian (cfg.vm false) W bias x val wrt) :=
  Sim.bindSame (r := getVal cfg W bias x val) fun _ _ => Sim.bindSame fun _ _ => Sim.bindSame fun _ _ => mjpSome_sim hg hx ..

theorem jmp_sim (hg : cfg.groups = 1) (hx : x.shape.head? ≠ some 0) (mat : Option (Tensor ℝ)) (wrt : Wrt) :
    Sim OEq (jmp (cfg.vm true) W bias x val mat wrt) (jmp (cfg.vm false) W bias x val mat wrt) := by
  cases mat with
  | none => exact jacobian_sim hg hx wrt
  | some m => cases wrt <;> exact Sim.of_eq _ fun _ _ => OEq.refl _

theorem mjp_sim (hg : cfg.groups = 1) (hx : x.shape.head? ≠ some 0) (mat : Option (Tensor ℝ)) (wrt : Wrt) :
    Sim OEq (mjp (cfg.vm true) W bias x val mat wrt) (mjp (cfg.vm false) W bias x val mat wrt) := by
  refine Sim.bindSame (r := getVal cfg W bias x val) fun v _ => ?_
  cases mat with
  | none => exact jacobian_sim hg hx wrt
  | some m => exact mjpSome_sim hg hx ..

theorem jTmjpWeightFull_sim (hg : cfg.groups = 1) (hx : x.shape.head? ≠ some 0) {v : Tensor ℝ} (hv : 0 ∉ v.shape.tail) (mat : Tensor ℝ) :
    Sim (fun t t' => ∃ b, TS [b, cfg.nParams, cfg.nParams] t t') (jTmjpWeightFull (cfg.vm true) bias x v mat) (jTmjpWeightFull (cfg.vm false) bias x v mat) := by
  refine Sim.bindSame fun d hd => Sim.bindSame fun d' hd' => Sim.bindSame fun _ ha => ?_
  have hb := dims4_pos hx hd
  have hs := dims4_shape hd
  have hs' := dims4_shape hd'
  have hm := assertR_of ha
  obtain ⟨b, c1, h1, w1⟩ := d
  obtain ⟨_, c2, h2, w2⟩ := d'
  have hz : 0 < c2 * h2 * w2 := by
    rw [hs'] at hv
    simp only [List.tail_cons, List.mem_cons, List.not_mem_nil, or_false, not_or] at hv
    exact Nat.mul_pos (Nat.mul_pos (by omega) (by omega)) (by omega)
  refine Sim.mono (R := TS [b, cfg.nParams, cfg.nParams]) ?_ fun _ _ h => ⟨b, h⟩
  refine vmap_fill hb hs hm fun i hi => ?_
  refine head_sim' (shape_n4 hs) hm hi fun xi vi hxi hvi => ?_
  refine Sim.bindRet (slice_4_0 (shape_n4 hs) hi) fun x1 hx1 => Sim.bindRet (flip_4_hw hx1) fun x2 hx2 => Sim.bindRet (movedim_4_01 hx2) fun x3 hx3 => ?_
  refine Sim.bindRet (slice_3_0 (shape_n3 hm) hi) fun v2 hv2 => ?_
  obtain ⟨m2, e3, h3⟩ := selectUnsq_3 (shape_n3 hm) hi
  rw [hvi] at e3
  simp only [Res.bind_ok] at e3
  rw [e3]
  exact weightSandwich_sim (cfg := cfg) bias hg hz (h3.ts hv2) (hxi.ts hx3)

theorem jTmjpWeightDiag_sim (hg : cfg.groups = 1) (hx : x.shape.head? ≠ some 0) (v mat : Tensor ℝ) :
    Sim OEq (some <$> jTmjpWeightDiag (cfg.vm true) bias x v mat) (some <$> jTmjpWeightDiag (cfg.vm false) bias x v mat) := by
  simp only [jTmjpWeightDiag, map_bind]
  refine Sim.bindSame fun d hd => Sim.bindSame fun d' hd' => Sim.bindSame fun m0 e0 => Sim.bindSame fun m1 e1 => Sim.bindSame fun xf ex => ?_
  have hb := dims4_pos hx hd
  have hs := dims4_shape hd
  obtain ⟨b, c1, h1, w1⟩ := d
  obtain ⟨_, c2, h2, w2⟩ := d'
  obtain ⟨_, e2, hm1⟩ := flip_4_chw (shape_n4 (reshape_shape e0))
  rw [e2] at e1; cases e1
  obtain ⟨_, e3, hxf⟩ := flip_4_chw (shape_n4 hs)
  rw [e3] at ex; cases ex
  refine (weightDiagKernel_sim (x := xf.map fun a => a * a) hg hb hxf.1 hm1.1).bind fun r r' hr => ?_
  cases bias with
  | none => exact Sim.ok hr.oeq
  | some bt =>
    simp only [map_bind]
    exact Sim.bindSame fun _ _ => Sim.bindSame fun e _ => cat2_same hr e 1

theorem jTmjp_sim (hg : cfg.groups = 1) (hx : x.shape.head? ≠ some 0) (hv : ∀ v, getVal cfg W bias x val = .ok v → 0 ∉ v.shape.tail)
    (mat : Option (Tensor ℝ)) (wrt : Wrt) (fd td db : Bool) :
    Sim OEq (jTmjp (cfg.vm true) W bias x val mat wrt fd td db) (jTmjp (cfg.vm false) W bias x val mat wrt fd td db) := by
  refine Sim.bindSame (r := getVal cfg W bias x val) fun v ev => ?_
  have hv := hv v ev
  have full : ∀ m, Sim OEq (some <$> jTmjpWeightFull (cfg.vm true) bias x v m) (some <$> jTmjpWeightFull (cfg.vm false) bias x v m) :=
    fun m => (jTmjpWeightFull_sim hg hx hv m).map fun _ _ ⟨_, h⟩ => h.oeq
  cases wrt with
  | input => exact Sim.of_eq _ fun _ _ => OEq.refl _
  | other => exact Sim.of_eq _ fun _ _ => OEq.refl _
  | weight =>
    have tail : ∀ m fd, Sim OEq
        (match fd, td with
          | false, false => some <$> jTmjpWeightFull (cfg.vm true) bias x v m
          | true, false => do
            let m ← m.diagEmbed
            some <$> jTmjpWeightFull (cfg.vm true) bias x v m
          | false, true => do
            let r ← jTmjpWeightFull (cfg.vm true) bias x v m
            some <$> r.diagonal12
          | true, true => some <$> jTmjpWeightDiag (cfg.vm true) bias x v m)
        (match fd, td with
          | false, false => some <$> jTmjpWeightFull (cfg.vm false) bias x v m
          | true, false => do
            let m ← m.diagEmbed
            some <$> jTmjpWeightFull (cfg.vm false) bias x v m
          | false, true => do
            let r ← jTmjpWeightFull (cfg.vm false) bias x v m
            some <$> r.diagonal12
          | true, true => some <$> jTmjpWeightDiag (cfg.vm false) bias x v m) := by
      intro m fd
      cases fd <;> cases td
      · exact full m
      · exact (jTmjpWeightFull_sim hg hx hv m).bind fun _ _ ⟨_, h⟩ => h.diagonal12.map fun _ _ h => h.oeq
      · exact Sim.bindSame fun m _ => full m
      · exact jTmjpWeightDiag_sim hg hx v m
    cases mat with
    | none => exact tail _ true
    | some m => exact tail m fd

/-! ### any number of groups -/

theorem noWeight_of (hg : ¬ cfg.groups = 1) (u : Bool) : (cfg.vm u).NoWeight := .inr (.inr hg)

theorem vjp_agree (hx : x.shape.head? ≠ some 0) (vec : Tensor ℝ) (wrt : Wrt) :
    Sim OEq (vjp (cfg.vm true) W bias x val vec wrt) (vjp (cfg.vm false) W bias x val vec wrt) := by
  by_cases hg : cfg.groups = 1
  · exact vjp_sim hg hx vec wrt
  · cases wrt with
    | weight => exact .inl ⟨vjp_bad (noWeight_of hg _) hx .., vjp_bad (noWeight_of hg _) hx ..⟩
    | _ => exact Sim.of_eq _ fun _ _ => OEq.refl _

theorem mjp_agree (hx : x.shape.head? ≠ some 0) (mat : Option (Tensor ℝ)) (wrt : Wrt) :
    Sim OEq (mjp (cfg.vm true) W bias x val mat wrt) (mjp (cfg.vm false) W bias x val mat wrt) := by
  by_cases hg : cfg.groups = 1
  · exact mjp_sim hg hx mat wrt
  · cases wrt with
    | weight => exact .inl ⟨mjp_bad (noWeight_of hg _) hx .., mjp_bad (noWeight_of hg _) hx ..⟩
    | _ => exact Sim.of_eq _ fun _ _ => OEq.refl _

theorem jacobian_agree (hx : x.shape.head? ≠ some 0) (wrt : Wrt) :
    Sim OEq (jacobian (cfg.vm true) W bias x val wrt) (jacobian (cfg.vm false) W bias x val wrt) := by
  by_cases hg : cfg.groups = 1
  · exact jacobian_sim hg hx wrt
  · cases wrt with
    | weight => exact .inl ⟨jacobian_bad (noWeight_of hg _) hx .., jacobian_bad (noWeight_of hg _) hx ..⟩
    | _ => exact Sim.of_eq _ fun _ _ => OEq.refl _

theorem jmp_agree (hx : x.shape.head? ≠ some 0) (mat : Option (Tensor ℝ)) (wrt : Wrt) :
    Sim OEq (jmp (cfg.vm true) W bias x val mat wrt) (jmp (cfg.vm false) W bias x val mat wrt) := by
  cases mat with
  | none => exact jacobian_agree hx wrt
  | some m => cases wrt <;> exact Sim.of_eq _ fun _ _ => OEq.refl _

theorem jTmjp_agree (hx : x.shape.head? ≠ some 0) (hv : ∀ v, getVal cfg W bias x val = .ok v → 0 ∉ v.shape.tail)
    (mat : Option (Tensor ℝ)) (wrt : Wrt) (fd td db : Bool) :
    Sim OEq (jTmjp (cfg.vm true) W bias x val mat wrt fd td db) (jTmjp (cfg.vm false) W bias x val mat wrt fd td db) := by
  by_cases hg : cfg.groups = 1
  · exact jTmjp_sim hg hx hv mat wrt fd td db
  · cases wrt with
    | weight => exact .inl ⟨jTmjp_bad (noWeight_of hg _) hx .., jTmjp_bad (noWeight_of hg _) hx ..⟩
    | _ => exact Sim.of_eq _ fun _ _ => OEq.refl _

/-- `forward` has no empty output dimension -/
theorem conv2d_pos {x W r : Tensor ℝ} {bias : Option (Tensor ℝ)} {a : Torch.ConvArgs} (hW : W.shape.head? ≠ some 0)
    (h : Torch.conv2d x W bias a = .ok r) : 0 ∉ r.shape.tail := by
  simp only [Torch.conv2d] at h
  split at h
  · rename_i n ci h' w' co cg kh kw h1 h2
    rw [h2] at hW
    simp only [List.head?_cons, ne_eq, Option.some.injEq] at hW
    by_cases hp : Torch.convLen h' kh a.stride.1 a.padding.1 a.dilation.1 ≤ 0 ∨ Torch.convLen w' kw a.stride.2 a.padding.2 a.dilation.2 ≤ 0
    · simp only [hp, if_true] at h
      split_ifs at h
    · simp only [hp, if_false] at h
      simp only [not_or, Int.not_le] at hp
      split_ifs at h
      cases h
      show 0 ∉ [co, _, _]
      simp only [List.mem_cons, List.not_mem_nil, or_false, not_or]
      refine ⟨fun h => hW h.symm, ?_, ?_⟩ <;> omega
  · cases h

theorem getVal_pos (hW : W.shape.head? ≠ some 0) (hval : ∀ v ∈ val, 0 ∉ v.shape) (v : Tensor ℝ) (h : getVal cfg W bias x val = .ok v) :
    0 ∉ v.shape.tail := by
  cases val with
  | none => exact conv2d_pos hW h
  | some w => cases h; exact fun h => hval v rfl (List.mem_of_mem_tail h)

theorem OEq.peq {o o' : Option (Tensor ℝ)} (h : OEq o o') : PEq (.ofOption o) (.ofOption o') := by
  match o, o', h with
  | none, none, _ => exact .none
  | some t, some t', h => exact .tensor ⟨h.2.1.symm, h.2.2⟩

/-- the calls have the same outcome in state `st`, which they leave as it is -/
def Agree (p p' : Prog ℝ (PyVal ℝ)) (st : Store ℝ) : Prop :=
  (∃ e e', p st = (.error e, st) ∧ p' st = (.error e', st)) ∨ ∃ r r', p st = (.ok r, st) ∧ p' st = (.ok r', st) ∧ PEq r r'

theorem agree_toMod {L L' : Store ℝ → PureLayer ℝ} (id n : Nat) (ps : List Nat) {x : Tensor ℝ} {val : Option (Tensor ℝ)} {st : Store ℝ}
    (hF : (L st).forward x = (L' st).forward x) (hJ : ∀ w, Sim OEq ((L st).jacobian x val w) ((L' st).jacobian x val w))
    (hjvp : ∀ v w, (L st).jvp x val v w = (L' st).jvp x val v w) (hjmp : ∀ m w, Sim OEq ((L st).jmp x val m w) ((L' st).jmp x val m w))
    (hjm : ∀ m w fd td db, (L st).jmjTp x val m w fd td db = (L' st).jmjTp x val m w fd td db)
    (hvjp : ∀ v w, Sim OEq ((L st).vjp x val v w) ((L' st).vjp x val v w)) (hmjp : ∀ m w, Sim OEq ((L st).mjp x val m w) ((L' st).mjp x val m w))
    (hjT : ∀ m w fd td db, Sim OEq ((L st).jTmjp x val m w fd td db) ((L' st).jTmjp x val m w fd td db)) (c : Call) :
    Agree (c.run (PureLayer.toMod L id n ps) x val) (c.run (PureLayer.toMod L' id n ps) x val) st := by
  have call : ∀ {p p' : Prog ℝ (Option (Tensor ℝ))} {o o' : Res (Option (Tensor ℝ))}, p st = (o, st) → p' st = (o', st) → Sim OEq o o' →
      Agree (do let r ← p; pure (PyVal.ofOption r)) (do let r ← p'; pure (PyVal.ofOption r)) st := by
    intro p p' o o' h h' hs
    rcases hs with ⟨⟨e, rfl⟩, ⟨e', rfl⟩⟩ | ⟨b, b', rfl, rfl, hR⟩
    · exact .inl ⟨e, e', by rw [Prog.bind_error h], by rw [Prog.bind_error h']⟩
    · exact .inr ⟨_, _, by rw [Prog.bind_ok h]; rfl, by rw [Prog.bind_ok h']; rfl, hR.peq⟩
  cases c with
  | forward =>
    have h : (PureLayer.toMod L id n ps).forward x st = ((L st).forward x, st) := rfl
    have h' : (PureLayer.toMod L' id n ps).forward x st = ((L' st).forward x, st) := rfl
    rw [← hF] at h'
    simp only [Call.run]
    cases hr : (L st).forward x with
    | error e =>
      rw [hr] at h h'
      exact .inl ⟨e, e, by rw [Prog.bind_error h], by rw [Prog.bind_error h']⟩
    | ok t =>
      rw [hr] at h h'
      exact .inr ⟨_, _, by rw [Prog.bind_ok h]; rfl, by rw [Prog.bind_ok h']; rfl, .tensor ⟨rfl, fun _ _ => rfl⟩⟩
  | jacobian w => exact call rfl rfl (hJ w)
  | vjp v w => exact call rfl rfl (hvjp v w)
  | mjp m w => exact call rfl rfl (hmjp m w)
  | jvp v w => exact call rfl rfl (by rw [hjvp]; exact Sim.of_eq _ fun _ _ => OEq.refl _)
  | jmp m w => exact call rfl rfl (hjmp m w)
  | jmjTp m w fd td db =>
    refine call rfl rfl ?_
    simp only [hjm]
    exact Sim.of_eq _ fun _ _ => OEq.refl _
  | jTmjp m w fd td db =>
    have h : (PureLayer.toMod L id n ps).jTmjp x val m w fd td db st = (((L st).jTmjp x val m w fd td db >>= fun r => pure (PyVal.ofOption r)), st) := rfl
    have h' : (PureLayer.toMod L' id n ps).jTmjp x val m w fd td db st = (((L' st).jTmjp x val m w fd td db >>= fun r => pure (PyVal.ofOption r)), st) := rfl
    simp only [Call.run]
    rcases hjT m w fd td db with ⟨⟨e, he⟩, ⟨e', he'⟩⟩ | ⟨b, b', he, he', hR⟩
    · exact .inl ⟨e, e', by rw [h, he]; rfl, by rw [h', he']; rfl⟩
    · exact .inr ⟨_, _, by rw [h, he]; rfl, by rw [h', he']; rfl, hR.peq⟩

theorem forward_vm (u : Bool) : forward (cfg.vm u) W bias x = forward cfg W bias x := rfl

theorem jmjTp_vm (u : Bool) (m : Option (Tensor ℝ)) (w : Wrt) (fd td db : Bool) :
    jmjTp (cfg.vm u) W bias x val m w fd td db = jmjTp cfg W bias x val m w fd td db := rfl

theorem vmap_agree (cfg : Cfg) (id wId bId : Nat) (st : Store ℝ) (hW : (st.param wId).shape.head? ≠ some 0) (x : Tensor ℝ)
    (hx : x.shape.head? ≠ some 0) (val : Option (Tensor ℝ)) (hval : ∀ v ∈ val, 0 ∉ v.shape) (c : Call) :
    Agree (c.run (Conv2d.mod (cfg.vm true) id wId bId) x val) (c.run (Conv2d.mod (cfg.vm false) id wId bId) x val) st := by
  have key : ∀ u, (Conv2d.mod (cfg.vm u) id wId bId : Mod ℝ) =
      PureLayer.toMod (fun s => layer (cfg.vm u) (s.param wId) (if cfg.hasBias then some (s.param bId) else none)) id cfg.nParams
        (if cfg.hasBias then [wId, bId] else [wId]) := fun u => rfl
  rw [key true, key false]
  refine agree_toMod _ _ _ ?_ ?_ ?_ ?_ ?_ ?_ ?_ ?_ c
  · exact (forward_vm true).trans (forward_vm false).symm
  · exact fun w => jacobian_agree hx w
  · exact fun _ _ => rfl
  · exact fun m w => jmp_agree hx m w
  · exact fun m w fd td db => (jmjTp_vm true m w fd td db).trans (jmjTp_vm false m w fd td db).symm
  · exact fun v w => vjp_agree hx v w
  · exact fun m w => mjp_agree hx m w
  · exact fun m w fd td db => jTmjp_agree hx (getVal_pos hW hval) m w fd td db

end
end Conv2d
end NNJ
