import Verif.Spec.Work

/-!
# Lemmas for C81
-/

namespace NNJ
namespace Work

theorem ein_l1 (b i o : Nat) : ein (szL b i o) ['b', 'x'] [['b', 'y'], ['y', 'x']] = b * i * o := by
  simp [ein, einGo, labels, vol, szL]; ring
theorem ein_l2 (b i o : Nat) : ein (szL b i o) ['b', 'y', 'x'] [['b', 'y'], ['b', 'x']] = b * i * o := by
  simp [ein, einGo, labels, vol, szL]; ring
theorem ein_l3 (b i o : Nat) : ein (szL b i o) ['b', 'x'] [['y', 'x'], ['b', 'y'], ['y', 'x']] = 2 * (b * i * o) := by
  simp [ein, einGo, labels, vol, szL]; ring
theorem ein_l4 (b i o : Nat) : ein (szL b i o) ['b', 'y', 'x'] [['b', 'x'], ['b', 'y']] = b * i * o := by
  simp [ein, einGo, labels, vol, szL]; ring
theorem ein_l5 (b i o : Nat) : ein (szL b i o) ['b', 'x', 'k'] [['y', 'x'], ['b', 'y'], ['y', 'k']] = b * i * o + b * i * o * i := by
  simp [ein, einGo, labels, vol, szL]; ring
theorem ein_l6 (b i o : Nat) : ein (szL b i o) ['b', 'x', 'k'] [['y', 'x'], ['b', 'y', 'j'], ['j', 'k']] =
    b * i * o * o + b * i * o * i := by
  simp [ein, einGo, labels, vol, szL]; ring
theorem ein_d1 (b n : Nat) : ein (szD b n) ['b', 'i'] [['b', 'i'], ['b', 'i']] = b * n := by
  simp [ein, einGo, labels, vol, szD]
theorem ein_d2 (b n : Nat) : ein (szD b n) ['b', 'j'] [['b', 'i'], ['b', 'i', 'j']] = b * n * n := by
  simp [ein, einGo, labels, vol, szD]; ring
theorem ein_d3 (b n : Nat) : ein (szD b n) ['b', 'i'] [['b', 'i', 'j'], ['b', 'j'], ['b', 'j', 'i']] = 2 * (b * n * n) := by
  simp [ein, einGo, labels, vol, szD]; ring

theorem le_mul_pos {a c : Nat} (h : 0 < c) : a ≤ a * c := Nat.le_mul_of_pos_right a h

theorem Layer.boundsI {b : Nat} (hb : 0 < b) (l : Layer) (h : l.Pos) : l.vjpI b ≤ l.jTI b ∧ l.jTI b ≤ 2 * l.vjpI b := by
  cases l with
  | linear i o bias => simp only [Layer.vjpI, Layer.jTI, ein_l1, ein_l3]; omega
  | conv c1 h1 w1 c2 h2 w2 kh kw bias vmap =>
      obtain ⟨-, -, -, -, hh, hw, -, -⟩ := h
      simp only [Layer.vjpI, Layer.jTI, convT]
      have e : b * (c2 * h2 * w2) * (c1 * kh * kw) = c2 * c1 * kh * kw * (b * h2 * w2) := by ring
      have := le_mul_pos (a := c2 * c1 * kh * kw) (Nat.mul_pos (Nat.mul_pos hb hh) hw)
      rw [e]; omega
  | act a n => simp only [Layer.vjpI, Layer.jTI, ein_d1]; omega
  | view n => simp [Layer.vjpI, Layer.jTI]
  | l2norm n => simp only [Layer.vjpI, Layer.jTI, ein_d2, ein_d3]; omega
  | maxpool c h1 w1 h2 w2 => simp only [Layer.vjpI, Layer.jTI]; omega
  | upsample c h w f => simp only [Layer.vjpI, Layer.jTI]; omega

theorem Layer.boundsW {b : Nat} (l : Layer) (h : l.Pos) : l.vjpW b ≤ l.jTW b ∧ l.jTW b ≤ 2 * l.vjpW b := by
  cases l with
  | linear i o bias =>
      simp only [Layer.vjpW, Layer.jTW, ein_l2, ein_l4]
      have := le_mul_pos (a := b * i) h.2
      omega
  | conv c1 h1 w1 c2 h2 w2 kh kw bias vmap =>
      simp only [Layer.vjpW, Layer.jTW, convW, Nat.mul_add]
      omega
  | act a n => simp [Layer.vjpW, Layer.jTW]
  | view n => simp [Layer.vjpW, Layer.jTW]
  | l2norm n => simp [Layer.vjpW, Layer.jTW]
  | maxpool c h1 w1 h2 w2 => simp [Layer.vjpW, Layer.jTW]
  | upsample c h w f => simp [Layer.vjpW, Layer.jTW]

mutual
theorem Net.boundsI {b : Nat} (hb : 0 < b) : (N : Net) → N.Pos → N.vjpI b ≤ N.jTI b ∧ N.jTI b ≤ 2 * N.vjpI b
  | .layer l, h => l.boundsI hb h
  | .seq c, h => Chain.boundsI hb c h
  | .skip n c, h => by
      have := Chain.boundsI hb c h
      simp only [Net.vjpI, Net.jTI]; omega
theorem Chain.boundsI {b : Nat} (hb : 0 < b) : (c : Chain) → c.Pos → c.vjpI b ≤ c.jTI b ∧ c.jTI b ≤ 2 * c.vjpI b
  | .nil, _ => by simp [Chain.vjpI, Chain.jTI]
  | .cons m c, h => by
      have h1 := Net.boundsI hb m h.1
      have h2 := Chain.boundsI hb c h.2
      simp only [Chain.vjpI, Chain.jTI]; omega
end

mutual
theorem Net.boundsW {b : Nat} (hb : 0 < b) : (N : Net) → N.Pos → N.vjpW b ≤ N.jTW b ∧ N.jTW b ≤ 2 * N.vjpW b
  | .layer l, h => l.boundsW h
  | .seq c, h => by
      have := Chain.boundsW hb c h true
      simp only [Net.vjpW, Net.jTW]; omega
  | .skip n c, h => by
      have := Chain.boundsW hb c h true
      simp only [Net.vjpW, Net.jTW]; omega
theorem Chain.boundsW {b : Nat} (hb : 0 < b) : (c : Chain) → c.Pos → ∀ first, c.vjpW b first ≤ c.jTW b first ∧ c.jTW b first ≤ 2 * c.vjpW b first
  | .nil, _, _ => by simp [Chain.vjpW, Chain.jTW]
  | .cons m c, h, first => by
      have h1 := Net.boundsW hb m h.1
      have h2 := Net.boundsI hb m h.1
      have h3 := Chain.boundsW hb c h.2 false
      simp only [Chain.vjpW, Chain.jTW]
      cases first <;> simp <;> omega
end

theorem exact_le (b : Nat) (ls : List Layer) : ∀ (pre : List Layer) (first : Bool) (i o : Nat) (bias : Bool) (post : List Layer),
    ls = pre ++ .linear i o bias :: post → (first = true → pre ≠ []) → b * o * i * i ≤ exactW b ls first := by
  induction ls with
  | nil => intro pre first i o bias post h; simp at h
  | cons l ls ih =>
      intro pre first i o bias post h hf
      cases pre with
      | nil =>
          have hf : first = false := by cases first <;> simp_all
          obtain ⟨rfl, rfl⟩ := List.cons.inj h
          subst hf
          have e : b * o * i * i = b * i * o * i := by ring
          simp only [exactW, Layer.jTIexact, Bool.false_eq_true, if_false]
          cases h : List.isEmpty ls <;> simp only [linearJTI, ein_l5, ein_l6] <;> omega
      | cons p pre =>
          obtain ⟨rfl, rfl⟩ := List.cons.inj h
          have := ih pre false i o bias post rfl (by simp)
          simp only [exactW]; omega

theorem ein_d4 (b n : Nat) : ein (szD b n) ['b', 'i', 'j'] [['b', 'i'], ['b', 'j']] = b * n * n := by
  simp [ein, einGo, labels, vol, szD]; ring
theorem ein_d5 (b n : Nat) : ein (szD b n) ['b', 'i', 'j'] [['b'], ['b', 'i', 'j']] = b * n * n := by
  simp [ein, einGo, labels, vol, szD]; ring
theorem ein_f1 (b i o : Nat) : ein (szL b i o) ['b', 'y'] [['y', 'x'], ['b', 'x']] = b * i * o := by
  simp [ein, einGo, labels, vol, szL]; ring
theorem ein_f2 (b i o : Nat) : ein (szL b i o) ['b', 'y'] [['b', 'y', 'x'], ['b', 'x']] = b * i * o := by
  simp [ein, einGo, labels, vol, szL]; ring
theorem ein_f3 (b i o : Nat) : ein (szL b i o) ['b', 'y'] [['y', 'x'], ['b', 'x'], ['y', 'x']] = 2 * (b * i * o) := by
  simp [ein, einGo, labels, vol, szL]; ring
theorem ein_f4 (b i o : Nat) : ein (szL b i o) ['b', 'y'] [['b', 'x'], ['b', 'y', 'x']] = b * i * o := by
  simp [ein, einGo, labels, vol, szL]; ring
theorem ein_f5 (b n : Nat) : ein (szD b n) ['b', 'i'] [['b', 'i', 'j'], ['b', 'j']] = b * n * n := by
  simp [ein, einGo, labels, vol, szD]; ring
theorem ein_f6 (b n : Nat) : ein (szD b n) ['b', 'i'] [['b', 'i', 'j'], ['b', 'j'], ['b', 'i', 'j']] = 2 * (b * n * n) := by
  simp [ein, einGo, labels, vol, szD]; ring
theorem ein_f7 (b n : Nat) : ein (szD b n) ['b', 'j'] [['b', 'j'], ['b', 'j']] = b * n := by
  simp [ein, einGo, labels, vol, szD]

theorem Layer.fwdI (b : Nat) (l : Layer) : l.jmI b ≤ 2 * l.jvI b := by
  cases l with
  | linear i o bias => simp only [Layer.jvI, Layer.jmI, ein_f1, ein_f3]; omega
  | act a n => simp only [Layer.jvI, Layer.jmI, ein_f7, ein_d1]; omega
  | l2norm n => simp only [Layer.jvI, Layer.jmI, ein_f5, ein_f6]; omega
  | _ => simp [Layer.jvI, Layer.jmI]

theorem Layer.fwdW (b : Nat) (l : Layer) (h : l.Pos) : l.jmW b ≤ 2 * l.jvW b := by
  cases l with
  | linear i o bias =>
      simp only [Layer.jvW, Layer.jmW, ein_f2, ein_f4]
      have := le_mul_pos (a := b * i) h.2
      omega
  | _ => simp [Layer.jvW, Layer.jmW]

mutual
theorem Net.fwdI (b : Nat) : (N : Net) → ∀ n, N.jmI b n ≤ 2 * N.jvI b n
  | .layer l, _ => l.fwdI b
  | .seq c, n => Chain.fwdI b c n
  | .skip m c, n => by
      have := Chain.fwdI b c m
      simp only [Net.jvI, Net.jmI]; omega
theorem Chain.fwdI (b : Nat) : (c : Chain) → ∀ n, c.jmI b n ≤ 2 * c.jvI b n
  | .nil, _ => by simp [Chain.jmI]
  | .cons m c, n => by
      have h1 := Net.fwdI b m n
      have h2 := Chain.fwdI b c (m.out n)
      simp only [Chain.jvI, Chain.jmI]; omega
end

mutual
theorem Net.fwdW (b : Nat) : (N : Net) → N.Pos → ∀ n, N.jmW b n ≤ 2 * N.jvW b n
  | .layer l, h, _ => l.fwdW b h
  | .seq c, h, n => Chain.fwdW b c h n false
  | .skip m c, h, n => by
      have := Chain.fwdW b c h m false
      simp only [Net.jvW, Net.jmW]; omega
theorem Chain.fwdW (b : Nat) : (c : Chain) → c.Pos → ∀ n acc, c.jmW b n acc ≤ 2 * c.jvW b n acc
  | .nil, _, _, _ => by simp [Chain.jmW]
  | .cons m c, h, n, acc => by
      have h1 := Net.fwdW b m h.1 n
      have h2 := Net.fwdI b m n
      have h3 := Chain.fwdW b c h.2 (m.out n) (acc || decide (m.params ≠ 0))
      simp only [Chain.jvW, Chain.jmW]
      by_cases hp : m.params = 0 <;> cases acc <;> simp [hp] at h3 ⊢ <;> omega
end

end Work
end NNJ
