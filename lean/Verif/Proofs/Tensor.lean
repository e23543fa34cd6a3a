import Verif.Torch.Einsum
import Verif.Proofs.ProgLemmas
import Mathlib.Algebra.BigOperators.Fin
import Mathlib.Tactic.Ring

/-! Index arithmetic of row-major tensors. -/

namespace NNJ
open Tensor

/-- multi-indices in range -/
def Valid : List Nat → List Nat → Prop
  | [], [] => True
  | d :: s, i :: is => i < d ∧ Valid s is
  | _, _ => False

@[simp] theorem valid_nil : Valid [] [] := trivial
@[simp] theorem valid_cons {d i : Nat} {s is : List Nat} : Valid (d :: s) (i :: is) ↔ i < d ∧ Valid s is := Iff.rfl

theorem Valid.length : ∀ {s idx : List Nat}, Valid s idx → idx.length = s.length
  | [], [], _ => rfl
  | _ :: _, _ :: _, h => by simp [Valid.length h.2]

@[simp] theorem size_nil : size [] = 1 := rfl
@[simp] theorem size_cons (d : Nat) (s : List Nat) : size (d :: s) = d * size s := rfl

theorem size_append : ∀ s t : List Nat, size (s ++ t) = size s * size t
  | [], t => by simp
  | d :: s, t => by simp [size_append s t, Nat.mul_assoc]

theorem ravel_lt : ∀ {s idx : List Nat}, Valid s idx → ravel s idx < size s
  | [], [], _ => by simp [ravel]
  | d :: s, i :: is, h => by
    have := ravel_lt h.2
    have h1 : i + 1 ≤ d := h.1
    calc ravel (d :: s) (i :: is) = i * size s + ravel s is := rfl
      _ < i * size s + size s := by omega
      _ = (i + 1) * size s := by ring
      _ ≤ d * size s := Nat.mul_le_mul_right _ h1

theorem unravel_ravel : ∀ {s idx : List Nat}, Valid s idx → unravel s (ravel s idx) = idx
  | [], [], _ => rfl
  | d :: s, i :: is, h => by
    have h2 := ravel_lt h.2
    have hpos : 0 < size s := by omega
    simp only [unravel, ravel]
    rw [Nat.mul_comm i, Nat.mul_add_div hpos, Nat.div_eq_of_lt h2, Nat.add_zero, Nat.mul_add_mod,
      Nat.mod_eq_of_lt h2, unravel_ravel h.2]

theorem unravel_valid : ∀ {s : List Nat} {k : Nat}, k < size s → Valid s (unravel s k)
  | [], _, _ => trivial
  | d :: s, k, h => by
    have hpos : 0 < size s := by
      rcases Nat.eq_zero_or_pos (size s) with h0 | h0
      · simp [h0] at h
      · exact h0
    exact ⟨(Nat.div_lt_iff_lt_mul hpos).2 h, unravel_valid (Nat.mod_lt _ hpos)⟩

theorem ravel_unravel : ∀ {s : List Nat} {k : Nat}, k < size s → ravel s (unravel s k) = k
  | [], k, h => by simp [size] at h; simp [ravel, h]
  | d :: s, k, h => by
    have hpos : 0 < size s := by
      rcases Nat.eq_zero_or_pos (size s) with h0 | h0
      · simp [h0] at h
      · exact h0
    simp only [unravel, ravel]
    rw [ravel_unravel (Nat.mod_lt _ hpos), Nat.mul_comm]
    exact Nat.div_add_mod k (size s)

variable {α : Type}

@[simp] theorem ofFn_shape (s : List Nat) (f : List Nat → α) : (ofFn s f).shape = s := rfl

theorem get_ofFn {s idx : List Nat} (f : List Nat → α) (h : Valid s idx) : (ofFn s f).get idx = f idx := by
  simp only [Tensor.get, ofFn, unravel_ravel h]

theorem ofFn_data_ravel {s idx : List Nat} (f : List Nat → α) (h : Valid s idx) :
    (ofFn s f).data (ravel s idx) = f idx := by
  simp only [ofFn, unravel_ravel h]

theorem ofFn_data (s : List Nat) (f : List Nat → α) (k : Nat) : (ofFn s f).data k = f (unravel s k) := rfl

/-- entries as flat offsets, by rank -/
theorem get1 {t : Tensor α} {n i : Nat} (h : t.shape = [n]) : t.get [i] = t.data i := by
  simp [Tensor.get, h, ravel]
theorem get2 {t : Tensor α} {m n i j : Nat} (h : t.shape = [m, n]) : t.get [i, j] = t.data (i * n + j) := by
  simp [Tensor.get, h, ravel]
theorem get3 {t : Tensor α} {l m n i j k : Nat} (h : t.shape = [l, m, n]) :
    t.get [i, j, k] = t.data (i * (m * n) + (j * n + k)) := by
  simp [Tensor.get, h, ravel]
theorem get4 {t : Tensor α} {a b c d i j k l : Nat} (h : t.shape = [a, b, c, d]) :
    t.get [i, j, k, l] = t.data (i * (b * (c * d)) + (j * (c * d) + (k * d + l))) := by
  simp [Tensor.get, h, ravel]
theorem get5 {t : Tensor α} {a b c d e i j k l m : Nat} (h : t.shape = [a, b, c, d, e]) :
    t.get [i, j, k, l, m]
      = t.data (i * (b * (c * (d * e))) + (j * (c * (d * e)) + (k * (d * e) + (l * e + m)))) := by
  simp [Tensor.get, h, ravel]

/-- `sumRange` as a `Finset` sum -/
theorem sumRange_eq {R : Type} [AddCommMonoid R] (n : Nat) (f : Nat → R) :
    sumRange n f = ∑ i : Fin n, f i := by
  induction n with
  | zero => simp [sumRange]
  | succ n ih => rw [Fin.sum_univ_castSucc]; simp [sumRange, ih]

theorem sumRange_congr [Zero α] [Add α] {n : Nat} {f g : Nat → α} (h : ∀ i < n, f i = g i) :
    sumRange n f = sumRange n g := by
  induction n with
  | zero => rfl
  | succ n ih =>
    simp only [sumRange]
    rw [ih fun i hi => h i (by omega), h n (by omega)]

/-! ### einsum -/

theorem labelDim_none : ∀ {pairs : List (Char × Nat)} {c : Char}, (∀ q ∈ pairs, q.1 ≠ c) → labelDim pairs c = 1
  | [], _, _ => rfl
  | (c', n) :: ps, c, h => by
    have h1 : c' ≠ c := h (c', n) (by simp)
    simp only [labelDim, h1, false_and, if_false]
    exact labelDim_none fun q hq => h q (by simp [hq])

theorem labelDim_eq {D : Char → Nat} : ∀ {pairs : List (Char × Nat)} {c : Char},
    (∀ q ∈ pairs, q.2 = D q.1) → (∃ q ∈ pairs, q.1 = c) → labelDim pairs c = D c
  | [], _, _, h => by simp at h
  | (c', n) :: ps, c, hD, hc => by
    have hn : n = D c' := hD (c', n) (by simp)
    have hps : ∀ q ∈ ps, q.2 = D q.1 := fun q hq => hD q (by simp [hq])
    simp only [labelDim]
    split
    · rename_i h
      rw [hn, h.1]
    · rename_i h
      by_cases hex : ∃ q ∈ ps, q.1 = c
      · exact labelDim_eq hps hex
      · have hcc : c' = c := by
          obtain ⟨q, hq, hqc⟩ := hc
          rcases List.mem_cons.mp hq with rfl | hq
          · exact hqc
          · exact absurd ⟨q, hq, hqc⟩ hex
        have hn1 : n = 1 := by
          by_contra h1; exact h ⟨hcc, h1⟩
        rw [labelDim_none fun q hq hqc => hex ⟨q, hq, hqc⟩, ← hcc, ← hn, hn1]

/-- operands have the sizes that `D` assigns to their labels -/
def ShapesFit (D : Char → Nat) : List (List Char) → List (Tensor α) → Prop
  | [], [] => True
  | l :: ls, t :: ts => t.shape = l.map D ∧ ShapesFit D ls ts
  | _, _ => False

theorem ranksOk_of_fit {D : Char → Nat} : ∀ {ins : List (List Char)} {ops : List (Tensor α)},
    ShapesFit D ins ops → ranksOk ins ops = true
  | [], [], _ => rfl
  | l :: ls, t :: ts, h => by simp [ranksOk, h.1, ranksOk_of_fit h.2]

theorem mem_zip_map {D : Char → Nat} {l : List Char} {q : Char × Nat} :
    q ∈ l.zip (l.map D) ↔ q.1 ∈ l ∧ q.2 = D q.1 := by
  induction l with
  | nil => simp
  | cons c cs ih =>
    simp only [List.map_cons, List.zip_cons_cons, List.mem_cons, ih]
    constructor
    · rintro (rfl | h)
      · simp
      · exact ⟨Or.inr h.1, h.2⟩
    · rintro ⟨rfl | h, h2⟩
      · left; exact Prod.ext rfl h2
      · exact Or.inr ⟨h, h2⟩

theorem diagOk_zip {D : Char → Nat} : ∀ l : List Char, diagOk (l.zip (l.map D)) = true
  | [] => rfl
  | c :: cs => by
    have : ∀ q ∈ cs.zip (cs.map D), q.2 = D q.1 := fun q hq => (mem_zip_map.1 hq).2
    simp only [List.map_cons, List.zip_cons_cons, diagOk, diagOk_zip cs, Bool.and_true, List.all_eq_true,
      decide_eq_true_eq]
    intro q hq hqc
    rw [this q hq, hqc]

theorem operandsDiagOk_of_fit {D : Char → Nat} : ∀ {ins : List (List Char)} {ops : List (Tensor α)},
    ShapesFit D ins ops → operandsDiagOk ins ops = true
  | [], [], _ => rfl
  | l :: ls, t :: ts, h => by simp [operandsDiagOk, h.1, diagOk_zip, operandsDiagOk_of_fit h.2]

theorem mem_labelPairs {D : Char → Nat} : ∀ {ins : List (List Char)} {ops : List (Tensor α)},
    ShapesFit D ins ops → ∀ q, q ∈ labelPairs ins ops ↔ q.1 ∈ ins.flatten ∧ q.2 = D q.1
  | [], [], _, q => by simp [labelPairs]
  | l :: ls, t :: ts, h, q => by
    simp only [labelPairs, List.mem_append, h.1, mem_zip_map, mem_labelPairs h.2 q, List.flatten_cons]
    constructor
    · rintro (⟨h1, h2⟩ | ⟨h1, h2⟩)
      · exact ⟨Or.inl h1, h2⟩
      · exact ⟨Or.inr h1, h2⟩
    · rintro ⟨h1 | h1, h2⟩
      · exact Or.inl ⟨h1, h2⟩
      · exact Or.inr ⟨h1, h2⟩

theorem labelDim_fit {D : Char → Nat} {ins : List (List Char)} {ops : List (Tensor α)}
    (h : ShapesFit D ins ops) {c : Char} (hc : c ∈ ins.flatten) : labelDim (labelPairs ins ops) c = D c :=
  labelDim_eq (fun q hq => ((mem_labelPairs h q).1 hq).2) ⟨(c, D c), (mem_labelPairs h _).2 ⟨hc, rfl⟩, rfl⟩

/-- product of operand entries with plain lookups -/
def plainProd (env : List (Char × Nat)) : List (List Char) → List (Tensor α) → List α
  | l :: ls, t :: ts => t.get (l.map (envGet env)) :: plainProd env ls ts
  | _, _ => []

theorem operandIdx_eq {D : Char → Nat} {env : List (Char × Nat)} : ∀ {l : List Char},
    (∀ c ∈ l, envGet env c < D c) → operandIdx env l (l.map D) = l.map (envGet env)
  | [], _ => rfl
  | c :: cs, h => by
    simp only [List.map_cons, operandIdx]
    have h1 := h c (by simp)
    rw [operandIdx_eq fun c' hc' => h c' (by simp [hc'])]
    congr 1
    split <;> omega

theorem operandsProd_eq [One α] [Mul α] {D : Char → Nat} {env : List (Char × Nat)} :
    ∀ {ins : List (List Char)} {ops : List (Tensor α)}, ShapesFit D ins ops →
    (∀ c ∈ ins.flatten, envGet env c < D c) → operandsProd env ins ops = plainProd env ins ops
  | [], [], _, _ => rfl
  | l :: ls, t :: ts, h, he => by
    simp only [operandsProd, plainProd]
    rw [operandsProd_eq h.2 fun c hc => he c (by simp only [List.flatten_cons, List.mem_append]; exact Or.inr hc), h.1,
      operandIdx_eq fun c hc => he c (by simp only [List.flatten_cons, List.mem_append]; exact Or.inl hc)]

theorem sumLabels_dim_congr [Zero α] [Add α] {D D' : Char → Nat} (f : List (Char × Nat) → α) :
    ∀ (cs : List Char) (env : List (Char × Nat)), (∀ c ∈ cs, D c = D' c) →
    sumLabels D f cs env = sumLabels D' f cs env
  | [], _, _ => rfl
  | c :: cs, env, h => by
    simp only [sumLabels]
    rw [h c (by simp)]
    exact sumRange_congr fun i _ => sumLabels_dim_congr f cs _ fun c' hc' => h c' (by simp [hc'])

theorem sumLabels_congr [Zero α] [Add α] {D : Char → Nat} {f g : List (Char × Nat) → α} :
    ∀ (cs S : List Char) (env : List (Char × Nat)), (∀ c ∈ S, envGet env c < D c) →
    (∀ env', (∀ c, c ∈ S ∨ c ∈ cs → envGet env' c < D c) → f env' = g env') →
    sumLabels D f cs env = sumLabels D g cs env
  | [], S, env, h, hfg => hfg env fun c hc => h c (by simpa using hc)
  | c :: cs, S, env, h, hfg => by
    simp only [sumLabels]
    refine sumRange_congr fun i hi => sumLabels_congr cs (c :: S) _ ?_ ?_
    · intro c' hc'
      simp only [envGet]
      split
      · rename_i hcc; rw [← hcc]; exact hi
      · rename_i hcc
        rcases List.mem_cons.mp hc' with rfl | hc'
        · exact absurd rfl hcc
        · exact h c' hc'
    · intro env' he
      refine hfg env' fun c' hc' => he c' ?_
      simp only [List.mem_cons] at hc' ⊢
      tauto

theorem mem_contracted {out : List Char} : ∀ {cs seen : List Char} {c : Char}, c ∈ cs →
    c ∈ out ∨ c ∈ seen ∨ c ∈ contracted out cs seen
  | c' :: cs, seen, c, h => by
    simp only [contracted]
    split
    · rename_i h1
      rcases List.mem_cons.mp h with rfl | h
      · tauto
      · exact mem_contracted h
    · rcases List.mem_cons.mp h with rfl | h
      · simp
      · rcases mem_contracted (out := out) (seen := c' :: seen) h with h | h | h
        · exact Or.inl h
        · rcases List.mem_cons.mp h with rfl | h
          · simp
          · exact Or.inr (Or.inl h)
        · simp [h]

theorem contracted_sub {out : List Char} : ∀ {cs seen : List Char} {c : Char},
    c ∈ contracted out cs seen → c ∈ cs
  | [], _, _, h => by simp [contracted] at h
  | c' :: cs, seen, c, h => by
    simp only [contracted] at h
    split at h
    · exact List.mem_cons_of_mem _ (contracted_sub h)
    · rcases List.mem_cons.mp h with rfl | h
      · simp
      · exact List.mem_cons_of_mem _ (contracted_sub h)

theorem envGet_zip {D : Char → Nat} : ∀ {out : List Char} {idx : List Nat} {c : Char},
    Valid (out.map D) idx → c ∈ out → envGet (out.zip idx) c < D c
  | c' :: out, i :: idx, c, h, hc => by
    simp only [List.zip_cons_cons, envGet]
    simp only [List.map_cons, valid_cons] at h
    split
    · rename_i hcc; rw [← hcc]; exact h.1
    · rename_i hcc
      rcases List.mem_cons.mp hc with rfl | hc
      · exact absurd rfl hcc
      · exact envGet_zip h.2 hc

/-- `einsum` when no dimension is broadcast. -/
theorem einsum_spec [Zero α] [One α] [Add α] [Mul α] (D : Char → Nat) {ins : List (List Char)}
    {out : List Char} {ops : List (Tensor α)} (h : ShapesFit D ins ops) (hout : ∀ c ∈ out, c ∈ ins.flatten) :
    ∃ r, einsum ins out ops = .ok r ∧ r.shape = out.map D ∧ ∀ idx, Valid (out.map D) idx →
      r.get idx = sumLabels D (fun env => prodList (plainProd env ins ops))
        (contracted out ins.flatten []) (out.zip idx) := by
  have hmap : out.map (labelDim (labelPairs ins ops)) = out.map D :=
    List.map_congr_left fun c hc => labelDim_fit h (hout c hc)
  have hok : ((labelPairs ins ops).all fun q => decide (q.2 = 1 ∨ q.2 = labelDim (labelPairs ins ops) q.1)) = true := by
    simp only [List.all_eq_true, decide_eq_true_eq]
    intro q hq
    right
    have := (mem_labelPairs h q).1 hq
    rw [labelDim_fit h this.1, this.2]
  have he : einsum ins out ops = .ok (ofFn (out.map (labelDim (labelPairs ins ops))) fun idx =>
      sumLabels (labelDim (labelPairs ins ops)) (fun env => prodList (operandsProd env ins ops))
        (contracted out ins.flatten []) (out.zip idx)) := by
    simp only [einsum, ranksOk_of_fit h, operandsDiagOk_of_fit h, Bool.and_self, if_true]
    rw [if_pos hok]
  refine ⟨_, he, ?_, ?_⟩
  · rw [ofFn_shape, hmap]
  · intro idx hv
    rw [get_ofFn _ (by rw [hmap]; exact hv)]
    rw [sumLabels_dim_congr _ _ _ fun c hc => labelDim_fit h (contracted_sub hc)]
    refine sumLabels_congr _ out _ (fun c hc => envGet_zip hv hc) fun env he => ?_
    rw [operandsProd_eq h fun c hc => he c ?_]
    rcases mem_contracted (out := out) (seen := []) hc with h | h | h
    · exact Or.inl h
    · simp at h
    · exact Or.inr h

end NNJ
