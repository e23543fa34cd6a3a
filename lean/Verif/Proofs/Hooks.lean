import Verif.Spec.Hooks
import Verif.Proofs.ProgLemmas

/-! Hooks of a Sequential in which module objects may be repeated. -/

namespace NNJ
namespace Sequential
variable {α : Type}

theorem register_hooks (id : Nat) : ∀ (ms : List (Mod α)) (h : Nat → List Nat) (j : Nat),
    register id ms h j = h j ++ List.replicate ((ms.map Mod.id).count j) id
  | [], h, j => by simp [register]
  | m :: ms, h, j => by
    rw [register, register_hooks id ms]
    by_cases hj : j = m.id
    · subst hj
      simp [List.replicate_succ]
    · rw [if_neg hj, List.map_cons, List.count_cons_of_ne (fun h => hj h.symm)]

theorem runHooks_replicate (v : Tensor α) (id : Nat) : ∀ (c : Nat) (s : Store α) (l : List (Tensor α)), s.fmaps id = some l →
    ∃ s', Mod.runHooks v (List.replicate c id) s = (.ok (), s') ∧ s'.fmaps id = some (l ++ List.replicate c v) ∧
      s'.param = s.param ∧ s'.hooks = s.hooks
  | 0, s, l, h => ⟨s, rfl, by simpa using h, rfl, rfl⟩
  | c + 1, s, l, h => by
    have h1 : Mod.runHook v id s = (.ok (), { s with fmaps := fun j => if j = id then some (l ++ [v]) else s.fmaps j }) := by
      simp only [Mod.runHook, h]
    obtain ⟨s', hr, hf, hp, hh⟩ := runHooks_replicate v id c { s with fmaps := fun j => if j = id then some (l ++ [v]) else s.fmaps j } (l ++ [v]) (by simp)
    refine ⟨s', ?_, ?_, hp, hh⟩
    · rw [List.replicate_succ, Mod.runHooks, Prog.bind_ok h1, hr]
    · rw [hf, List.replicate_succ]; simp

theorem run_shared (id : Nat) (cnt : Nat → Nat) (st : Store α) : ∀ (ms : List (Mod α)) (x : Tensor α) (vs : List (Tensor α)) (s : Store α)
    (l : List (Tensor α)), (∀ m ∈ ms, m.Stateless) → (∀ m ∈ ms, s.hooks m.id = List.replicate (cnt m.id) id) → s.param = st.param →
    s.fmaps id = some l → Outputs st ms x vs →
    ∃ s', run ms x s = (.ok ((x :: vs).getLast (by simp)), s') ∧
      s'.fmaps id = some (l ++ (List.zipWith (fun m v => List.replicate (cnt m.id) v) ms vs).flatten) ∧ s'.param = s.param ∧ s'.hooks = s.hooks
  | [], x, vs, s, l, _, _, _, hl, ho => by
    cases (show vs = [] from ho)
    exact ⟨s, rfl, by simpa using hl, rfl, rfl⟩
  | m :: ms, x, vs, s, l, hs, hh, hp, hl, ho => by
    obtain ⟨v, ws, rfl, hv, ho'⟩ := ho
    have h1 : m.forward x s = (.ok v, s) := by rw [hs m (by simp) x s st hp, hv]
    obtain ⟨s1, hr, hf, hp1, hh1⟩ := runHooks_replicate v id (cnt m.id) s l hl
    have hc : m.call x s = (.ok v, s1) := by
      rw [Mod.call, Prog.bind_ok h1, Prog.bind_read_run, hh m (by simp), Prog.bind_ok hr, Prog.pure_run]
    obtain ⟨s', h3, h4, h5, h6⟩ := run_shared id cnt st ms v ws s1 _ (fun m' hm' => hs m' (by simp [hm']))
      (fun m' hm' => by rw [hh1]; exact hh m' (by simp [hm'])) (hp1.trans hp) hf ho'
    refine ⟨s', ?_, ?_, h5.trans hp1, h6.trans hh1⟩
    · rw [run, Prog.bind_ok hc, h3]
      simp
    · rw [h4]; simp

theorem forward_shared [Zero α] [One α] [Add α] (id : Nat) (ms : List (Mod α)) (st : Store α) (hs : ∀ m ∈ ms, m.Stateless) (hh : ∀ m ∈ ms, st.hooks m.id = [])
    (x : Tensor α) (vs : List (Tensor α)) (ho : Outputs st ms x vs) :
    ∃ s', (mod id true ms).forward x (init id ms true st).2 = (.ok ((x :: vs).getLast (by simp)), s') ∧
      s'.fmaps id = some (x :: (List.zipWith (fun m v => List.replicate ((ms.map Mod.id).count m.id) v) ms vs).flatten) ∧
      s'.param = st.param := by
  obtain ⟨s', h1, h2, h3, h4⟩ := run_shared id (fun j => (ms.map Mod.id).count j) st ms x vs
    { (init id ms true st).2 with fmaps := fun j => if j = id then some [x] else (init id ms true st).2.fmaps j } [x] hs
    (fun m hm => by
      show register id ms st.hooks m.id = _
      rw [register_hooks, hh m hm, List.nil_append]) rfl (by simp) ho
  exact ⟨s', h1, h2, h3⟩

theorem vjp_input_run [Zero α] [One α] [Add α] {id : Nat} {b : Bool} {ms : List (Mod α)} {x u v : Tensor α} {st s' : Store α}
    (h : (mod id b ms).forward x st = (.ok v, s')) :
    (mod id b ms).vjp x none u .input st = (vjpInput id ms ms.length u >>= fun r => pure (some r)) s' :=
  Prog.bind_ok (p := forward id b ms x) h

theorem vjpInput_step {id : Nat} {ms : List (Mod α)} {s' : Store α} {l : List (Tensor α)} (hl : s'.fmaps id = some l) (m : Mod α) (k : Nat)
    (x v u w : Tensor α) (hm : ms[k]? = some m) (hx : l[k]? = some x) (hv : l[k + 1]? = some v)
    (hw : m.vjp x (some v) u .input s' = (.ok (some w), s')) : vjpInput id ms (k + 1) u s' = vjpInput id ms k w s' := by
  have hc : child ms k s' = (.ok m, s') := by simp only [child, hm]
  have h1 : fmap id k s' = (.ok x, s') := by simp only [fmap, hl, hx]
  have h2 : fmap id (k + 1) s' = (.ok v, s') := by simp only [fmap, hl, hv]
  rw [vjpInput, Prog.bind_ok hc, Prog.bind_ok h1, Prog.bind_ok h2, Prog.bind_ok hw]
  rfl

end Sequential
end NNJ
