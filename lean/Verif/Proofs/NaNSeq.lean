import Verif.Proofs.NaN
import Verif.Model.Sequential

/-! NaN in the gradients of a Sequential whose last layer is `nnj.Linear`. -/

namespace NNJ
open Tensor NaNLaws

namespace NaN
set_option linter.unusedSectionVars false
variable {α : Type}

theorem bind_inv {β γ : Type} {p : Prog α β} {f : β → Prog α γ} {s s' : Store α} {b : γ} (h : (p >>= f) s = (.ok b, s')) :
    ∃ a s1, p s = (.ok a, s1) ∧ f a s1 = (.ok b, s') := by
  change Prog.bind p f s = _ at h
  unfold Prog.bind at h
  split at h
  · rename_i a s1 e
    exact ⟨a, s1, e, h⟩
  · cases h

theorem lift_inv {β : Type} {r : Res β} {s s' : Store α} {b : β} (h : (liftM r : Prog α β) s = (.ok b, s')) : r = .ok b ∧ s' = s := by
  change (r, s) = _ at h
  injection h with h1 h2
  exact ⟨h1, h2.symm⟩

theorem res_inv {β γ : Type} {r : Res β} {f : β → Res γ} {b : γ} (h : (r >>= f) = .ok b) : ∃ a, r = .ok a ∧ f a = .ok b := by
  cases r with
  | error e => cases h
  | ok a => exact ⟨a, rfl, h⟩

theorem map_inv {β γ : Type} {r : Res β} {f : β → γ} {b : γ} (h : f <$> r = .ok b) : ∃ a, r = .ok a ∧ f a = b := by
  cases r with
  | error e => cases h
  | ok a => exact ⟨a, rfl, by injection h⟩

/-- the last `o` columns of `g` are `r` -/
def Tail (r g : Tensor α) (B o : Nat) : Prop := ∃ q, g.shape = [B, q + o] ∧ ∀ n c, n < B → c < o → g.get [n, q + c] = r.get [n, c]

theorem cat2_tail {a r u g : Tensor α} {B o : Nat} (hu : Tail r u B o) (h : cat2 a u 1 = .ok g) : Tail r g B o := by
  obtain ⟨q, hs, hg⟩ := hu
  unfold cat2 at h
  split at h
  · rename_i m n hm hn
    split at h
    · rename_i e
      injection h with h
      obtain rfl : q + o = n := by simpa [hs] using hn
      have ha : a.shape = [B, m] := by
        rw [hs] at e
        rcases hsh : a.shape with _ | ⟨d, _ | ⟨d2, _ | ⟨d3, l⟩⟩⟩ <;> rw [hsh] at e hm <;> simp at e hm
        rw [e, hm]
      subst h
      refine ⟨m + q, by simp [ha, Nat.add_assoc], fun k c hk hc => ?_⟩
      rw [get_ofFn _ (by simp [ha, Valid, hk]; omega)]
      have : ¬ (m + q + c < m) := by omega
      simp only [List.getD_cons_succ, List.getD_cons_zero, this, if_false, List.set]
      rw [show m + q + c - m = q + c by omega]
      exact hg k c hk hc
    · cases h
  · cases h

theorem cat_tail {r u g : Tensor α} {B o : Nat} (hu : Tail r u B o) {pre : List (Tensor α)} (h : Tensor.cat 1 (pre ++ [u]) = .ok g) : Tail r g B o := by
  cases pre with
  | nil =>
    obtain ⟨q, hs, hg⟩ := hu
    simp [Tensor.cat, hs] at h
    subst h
    exact ⟨q, hs, hg⟩
  | cons a pre =>
    simp only [List.cons_append, Tensor.cat] at h
    split at h
    · rw [List.foldlM_append] at h
      obtain ⟨v, -, h⟩ := res_inv h
      simp only [List.foldlM_cons, List.foldlM_nil] at h
      obtain ⟨v', h3, h2⟩ := res_inv h
      injection h2 with h2
      subst h2
      exact cat2_tail hu h3
    · cases h

section
variable [Zero α] [One α] [Add α] [Sub α] [Neg α] [Mul α] [Div α] [NatCast α] [Trans α] [NaNLaws α]

theorem linear_tail {W b x v g : Tensor α} {val : Option (Tensor α)} {B o : Nat} (hv : v.shape = [B, o])
    (h : Linear.vjp W (some b) x val v .weight = .ok (some g)) : Tail v g B o := by
  simp only [Linear.vjp] at h
  obtain ⟨bc, -, h⟩ := res_inv h
  obtain ⟨p, -, h⟩ := res_inv h
  obtain ⟨p', -, h⟩ := res_inv h
  obtain ⟨g', h3, h2⟩ := map_inv h
  injection h2 with h2
  subst h2
  exact cat2_tail ⟨0, by simpa using hv, fun n c _ _ => by simp⟩ h3

theorem vjpWeight_acc {q : Nat} {ms : List (Mod α)} : ∀ (k : Nat) {v : Tensor α} {vs vs' : List (Tensor α)} {s s' : Store α},
    Sequential.vjpWeight q ms k v vs s = (.ok vs', s') → ∃ pre, vs' = pre ++ vs
  | 0, v, vs, vs', s, s', h => by
    injection h with h1 h2
    injection h1 with h1
    exact ⟨[], h1.symm⟩
  | k + 1, v, vs, vs', s, s', h => by
    simp only [Sequential.vjpWeight] at h
    obtain ⟨m, s1, -, h⟩ := bind_inv h
    obtain ⟨x, s2, -, h⟩ := bind_inv h
    obtain ⟨y, s3, -, h⟩ := bind_inv h
    obtain ⟨vk, s4, -, h⟩ := bind_inv h
    split at h
    · injection h with h1 h2
      injection h1 with h1
      exact ⟨vk.toList, h1.symm⟩
    · obtain ⟨u, s5, -, h⟩ := bind_inv h
      obtain ⟨w, s6, -, h⟩ := bind_inv h
      obtain ⟨pre, hp⟩ := vjpWeight_acc k h
      exact ⟨pre ++ vk.toList, by rw [hp, List.append_assoc]⟩

/-- the last columns of the gradient wrt the weight are the vector that was given -/
theorem seq_tail {q id w b i o : Nat} {ah : Bool} {ms : List (Mod α)} {x val v g : Tensor α} {s s' : Store α} {B : Nat} (hv : v.shape = [B, o])
    (h : (Sequential.mod q ah (ms ++ [Linear.mod id w (some b) i o]) : Mod α).vjp x (some val) v .weight s = (.ok (some g), s')) : Tail v g B o := by
  change Sequential.vjp q ah _ x (some val) v .weight s = _ at h
  unfold Sequential.vjp at h
  obtain ⟨_, s0, -, h⟩ := bind_inv h
  obtain ⟨_, s1, -, h⟩ := bind_inv h
  obtain ⟨vs, s2, h1, h⟩ := bind_inv h
  obtain ⟨h, -⟩ := lift_inv h
  rw [List.length_append, List.length_singleton] at h1
  simp only [Sequential.vjpWeight] at h1
  obtain ⟨m, s3, hm, h1⟩ := bind_inv h1
  obtain ⟨y, s4, -, h1⟩ := bind_inv h1
  obtain ⟨z, s5, -, h1⟩ := bind_inv h1
  obtain ⟨vk, s6, hvk, h1⟩ := bind_inv h1
  have hm' : m = Linear.mod id w (some b) i o := by
    simp only [Sequential.child, List.getElem?_concat_length] at hm
    injection hm with hm _
    injection hm with hm
    exact hm.symm
  subst hm'
  change (Linear.vjp (s5.param w) (some (s5.param b)) y (some z) v .weight, s5) = _ at hvk
  injection hvk with hvk _
  obtain ⟨u, rfl⟩ : ∃ u, vk = some u := by
    have h0 := hvk
    simp only [Linear.vjp] at h0
    obtain ⟨bc, -, h0⟩ := res_inv h0
    obtain ⟨p, -, h0⟩ := res_inv h0
    obtain ⟨p', -, h0⟩ := res_inv h0
    obtain ⟨g', -, h2⟩ := map_inv h0
    exact ⟨g', h2.symm⟩
  obtain ⟨pre, rfl⟩ : ∃ pre, vs = pre ++ [u] := by
    split at h1
    · injection h1 with h1 h2
      injection h1 with h1
      exact ⟨[], h1.symm⟩
    · obtain ⟨u', s7, -, h1⟩ := bind_inv h1
      obtain ⟨w', s8, -, h1⟩ := bind_inv h1
      exact vjpWeight_acc _ h1
  unfold Sequential.catOrNone at h
  rw [if_pos (by simp)] at h
  obtain ⟨g', h3, h2⟩ := map_inv h
  injection h2 with h2
  subst h2
  exact cat_tail (linear_tail hv hvk) h3

/-! ### after a step -/

theorem linear_forward_nan {W b x y : Tensor α} {o c : Nat} (hb : b.shape = [o]) (hn : isNaN (b.data c)) (h : Linear.forward W (some b) x = .ok y) :
    y.shape.getLast? = some o ∧ ∀ k, k % o = c → isNaN (y.data k) := by
  simp only [Linear.forward, Torch.linear] at h
  split at h
  · rename_i n c2 c1 h1 h2
    split at h
    · split at h
      · rename_i h3
        injection h with h
        obtain rfl : o = c2 := by simpa [hb] using h3
        subst h
        exact ⟨by simp, fun k hk => add_r (by rw [hk]; exact hn)⟩
      · cases h
    · cases h
  · cases h

theorem hooks_param {v : Tensor α} : ∀ (is : List Nat) (s : Store α), (Mod.runHooks v is s).2.param = s.param
  | [], s => rfl
  | i :: is, s => by
    show (Prog.bind (Mod.runHook v i) (fun _ => Mod.runHooks v is) s).2.param = _
    unfold Prog.bind Mod.runHook
    cases s.fmaps i with
    | none => rfl
    | some l => exact hooks_param is _

theorem run_last {L : Mod α} : ∀ {ms : List (Mod α)} {x y : Tensor α} {s s' : Store α} (_ : ∀ m ∈ ms, ∀ x s, (m.call x s).2.param = s.param),
    Sequential.run (ms ++ [L]) x s = (.ok y, s') → ∃ z s1 s2, L.forward z s1 = (.ok y, s2) ∧ s1.param = s.param
  | [], x, y, s, s', _, h => by
    simp only [List.nil_append, Sequential.run] at h
    obtain ⟨v, s1, h1, h⟩ := bind_inv h
    injection h with h _
    injection h with h
    subst h
    unfold Mod.call at h1
    obtain ⟨v', s2, h3, h2⟩ := bind_inv h1
    obtain ⟨_, s3, -, h2⟩ := bind_inv h2
    obtain ⟨_, s4, -, h2⟩ := bind_inv h2
    injection h2 with h2 _
    injection h2 with h2
    subst h2
    exact ⟨x, s, s2, h3, rfl⟩
  | m :: ms, x, y, s, s', hk, h => by
    simp only [List.cons_append, Sequential.run] at h
    obtain ⟨v, s1, h1, h⟩ := bind_inv h
    obtain ⟨z, s2, s3, h2, h3⟩ := run_last (fun m hm => hk m (by simp [hm])) h
    refine ⟨z, s2, s3, h2, ?_⟩
    have := hk m (by simp) x s
    rw [h1] at this
    rw [h3, this]

/-- number of entries of parameters -/
def total (s : Store α) (l : List Nat) : Nat := (l.map fun i => (s.param i).numel).sum

theorem setLoop_last {v : Tensor α} {b : Nat} : ∀ {l : List Nat} {p : Nat} {s s' : Store α}, b ∉ l →
    setWeightLoop v (l ++ [b]) p s = (.ok (), s') → s'.param b = ⟨(s.param b).shape, fun k => v.data (p + total s l + k)⟩
  | [], p, s, s', _, h => by
    simp only [List.nil_append, setWeightLoop] at h
    split at h
    · injection h with _ h
      subst h
      simp [total]
    · cases h
  | i :: l, p, s, s', hb, h => by
    simp only [List.cons_append, setWeightLoop] at h
    split at h
    · have hne : b ≠ i := fun e => hb (by simp [e])
      have := setLoop_last (fun h' => hb (by simp [h'])) h
      rw [this]
      simp only [if_neg hne]
      congr 1
      funext k
      congr 1
      have : ∀ j, (if j = i then (⟨(s.param i).shape, fun k => v.data (p + k)⟩ : Tensor α) else s.param j).numel = (s.param j).numel := by
        intro j
        split_ifs with e
        · rw [e]; rfl
        · rfl
      simp only [total, this, List.map_cons, List.sum_cons]
      omega
    · cases h

theorem fold_total {s : Store α} : ∀ {l : List Nat} {a wt : Tensor α} {n : Nat}, a.shape = [n] →
    (l.map fun i => (⟨[(s.param i).numel], (s.param i).data⟩ : Tensor α)).foldlM (fun r u => cat2 r u 0) a = .ok wt → wt.shape = [n + total s l]
  | [], a, wt, n, ha, h => by
    injection h with h
    subst h
    simpa [total] using ha
  | i :: l, a, wt, n, ha, h => by
    simp only [List.map_cons, List.foldlM_cons] at h
    obtain ⟨u, h1, h2⟩ := res_inv h
    have hu : u.shape = [n + (s.param i).numel] := by
      simp [cat2, ha] at h1
      subst h1
      rfl
    rw [fold_total hu h2]
    simp [total, Nat.add_assoc]

theorem getWeight_total {m : Mod α} {s s' : Store α} {wt : Tensor α} (h : m.getWeight s = (.ok wt, s')) : wt.shape = [total s m.parameters] := by
  unfold Mod.getWeight at h
  injection h with h _
  cases hp : m.parameters with
  | nil => rw [hp] at h; cases h
  | cons i l =>
    rw [hp] at h
    simp only [List.map_cons, Tensor.cat, List.length_singleton, Nat.zero_lt_one, if_true] at h
    rw [fold_total rfl h]
    simp [total]

end
end NaN
end NNJ
