import Verif.Proofs.Convert
import Verif.Proofs.Build
import Verif.Proofs.NetFacts

/-! Converting layers with default hyper-parameters gives a properly wired network. -/

namespace NNJ
namespace Utils
open Tensor

theorem Typed.supported {i : Nat} {s s' : List Nat} {n k p : Nat} {a : TorchLayer ℝ} {N : Net s n s' k p} (h : Typed i a N) :
    a.Supported ∧ (a.dropped = a ∨ (a = .nnFlatten ∧ s ≠ [])) := by
  cases h <;> try exact ⟨trivial, Or.inl rfl⟩
  · exact ⟨rfl, Or.inl rfl⟩
  · exact ⟨rfl, Or.inl rfl⟩
  · rename_i g ha
    exact ⟨trivial, Or.inl (by rw [TorchLayer.dropped, ← ha])⟩
  · exact ⟨trivial, Or.inr ⟨rfl, (by assumption)⟩⟩

theorem Typed.ids {i : Nat} {s s' : List Nat} {n k p : Nat} {a : TorchLayer ℝ} {N : Net s n s' k p} (h : Typed i a N) :
    N.ids = [2 * i] ∧ N.mod.id = 2 * i := by
  cases h <;> exact ⟨by simp [Net.ids], by simp [Net.mod, Linear.mod, Activation.toMod, Resh.flatten, L2Norm.mod, Conv2d.mod, MaxPool2d.mod, PureLayer.toMod]⟩

theorem Typed.run {i : Nat} {s s' : List Nat} {n k p : Nat} {a : TorchLayer ℝ} {N : Net s n s' k p} (h : Typed i a N) (st : Store ℝ) :
    ∃ st1, convertLayer i a st = (.ok N.mod, st1) ∧ N.Wired st1 ∧ Frame i st st1 := by
  have e20 : ((20 : Nat) : ℝ) = 20 := by norm_num
  have e6 : (1 / ((1000000 : Nat) : ℝ)) = 1 / 1000000 := by norm_num
  cases h with
  | linear inF outF hi ho w b hw hb =>
    refine ⟨_, by rw [convert_linear, Net.mod], ?_, frame_withParams i w b st⟩
    simp only [Net.Wired, withParams_w, withParams_b, Option.mem_def, Option.some.injEq, forall_eq']
    exact ⟨hw, hb⟩
  | conv2d g hv h0 h0' w b hw hb =>
    refine ⟨_, ?_, ?_, frame_withParams i w b st⟩
    · rw [convert_conv, Net.mod]
      congr 3
      rw [ConvDims.cfg, h0, h0', hv]
      rfl
    · simp only [Net.Wired, withParams_w, withParams_b, Option.mem_def, Option.some.injEq, forall_eq']
      exact ⟨hw, hb⟩
  | maxPool2d g ha => exact ⟨st, by rw [Net.mod, ha]; rfl, by simp only [Net.Wired], frame_refl⟩
  | softplus => exact ⟨st, by rw [Net.mod, convertLayer, e20]; rfl, by simp only [Net.Wired], frame_refl⟩
  | l2norm => exact ⟨st, by rw [Net.mod, convertLayer, e6]; rfl, by simp only [Net.Wired], frame_refl⟩
  | _ => exact ⟨st, by rw [Net.mod]; rfl, by simp only [Net.Wired], frame_refl⟩

/-- on a batch of samples the layer returns a batch, and so does the layer it is converted to -/
theorem Typed.forward {i : Nat} {s s' : List Nat} {n k p : Nat} {a : TorchLayer ℝ} {N : Net s n s' k p} (h : Typed i a N) {B : Nat}
    {X : Fin B → Fin n → ℝ} {x : Tensor ℝ} (hB : 0 < B) (hx : IsBatch x B s n X) :
    ∃ v Y, a.dropped.forward x = .ok v ∧ a.forward x = .ok v ∧ IsBatch v B s' k Y := by
  obtain ⟨st1, h1, hw, hf⟩ := h.run { param := fun _ => ⟨[], fun _ => 0⟩, fmaps := fun _ => none, pidx := fun _ => none, hooks := fun _ => [] }
  obtain ⟨m, st2, h2, _, _, hI⟩ := convertLayer_run a h.supported.1 i
    { param := fun _ => ⟨[], fun _ => 0⟩, fmaps := fun _ => none, pidx := fun _ => none, hooks := fun _ => [] }
  rw [h1] at h2
  obtain ⟨rfl, rfl⟩ : N.mod = m ∧ st1 = st2 := by simpa using h2
  have hok : N.Ok st1 := ⟨by rw [h.ids.1]; simp, hw⟩
  obtain ⟨v, hv, hb⟩ := hok.forward hB hx
  obtain ⟨s', hs', _⟩ := hI st1 rfl rfl (by rw [hf.hooks]) x
  have hd : a.dropped.forward x = .ok v := by
    rw [Returns, hs'] at hv
    exact hv
  refine ⟨v, _, hd, ?_, hb⟩
  rcases h.supported.2 with e | ⟨rfl, hne⟩
  · rw [← e, hd]
  · rw [TorchLayer.dropped, TorchLayer.forward] at hd
    rw [TorchLayer.forward]
    obtain ⟨c, t, rfl⟩ := List.exists_cons_of_ne_nil hne
    rw [nnFlatten_eq hx.1, hd]
    rw [hx.1]
    cases h with
    | nnFlatten _ _ hs hn _ =>
      show B * size (c :: t) ≠ 0
      rw [hs]
      exact (Nat.mul_pos hB hn).ne'

theorem convertLayers_snoc (i : Nat) (ls : List (TorchLayer ℝ)) (a : TorchLayer ℝ) {st st1 st2 : Store ℝ} {ms : List (Mod ℝ)} {m : Mod ℝ}
    (h1 : convertLayers i ls st = (.ok ms, st1)) (h2 : convertLayer (i + ls.length) a st1 = (.ok m, st2)) :
    convertLayers i (ls ++ [a]) st = (.ok (ms ++ [m]), st2) := by
  induction ls generalizing i st ms with
  | nil =>
    cases h1
    have h2' : convertLayer i a st1 = (.ok m, st2) := h2
    rw [List.nil_append, convertLayers, Prog.bind_ok h2']
    rfl
  | cons l ls ih =>
    rw [convertLayers] at h1
    rcases hl : convertLayer i l st with ⟨r, s1⟩
    cases r with
    | error e => rw [Prog.bind_error hl] at h1; cases h1
    | ok m' =>
      rw [Prog.bind_ok hl] at h1
      rcases hr : convertLayers (i + 1) ls s1 with ⟨r, s2⟩
      cases r with
      | error e => rw [Prog.bind_error hr] at h1; cases h1
      | ok ms' =>
        rw [Prog.bind_ok hr] at h1
        cases h1
        have h2' : convertLayer (i + 1 + ls.length) a st1 = (.ok m, st2) := by
          rw [← h2, List.length_cons]; congr 1; omega
        rw [List.cons_append, convertLayers, Prog.bind_ok hl, Prog.bind_ok (ih (i + 1) hr h2')]
        rfl

theorem TypedC.length {i : Nat} {s s' : List Nat} {n k p l : Nat} {ls : List (TorchLayer ℝ)} {c : Chain s n s' k p l} (h : TypedC i ls c) :
    ls.length = l := by
  induction h with
  | nil => rfl
  | snoc _ _ ih => simp [ih]

theorem TypedC.supported {i : Nat} {s s' : List Nat} {n k p l : Nat} {ls : List (TorchLayer ℝ)} {c : Chain s n s' k p l} (h : TypedC i ls c) :
    ∀ a ∈ ls, a.Supported := by
  induction h with
  | nil => simp
  | snoc _ ha ih =>
    intro a h
    rcases List.mem_append.1 h with h | h
    · exact ih a h
    · rw [List.mem_singleton.1 h]; exact ha.supported.1

theorem TypedC.forward {i : Nat} {s s' : List Nat} {n k p l : Nat} {ls : List (TorchLayer ℝ)} {c : Chain s n s' k p l} (h : TypedC i ls c)
    {B : Nat} {X : Fin B → Fin n → ℝ} {x : Tensor ℝ} (hB : 0 < B) (hx : IsBatch x B s n X) :
    ∃ v Y, torchForward (ls.map TorchLayer.dropped) x = .ok v ∧ torchForward ls x = .ok v ∧ IsBatch v B s' k Y := by
  induction h with
  | nil => exact ⟨x, X, by rw [List.map_nil, torchForward], by rw [torchForward], hx⟩
  | snoc _ ha ih =>
    obtain ⟨v, Y, h1, h2, h3⟩ := ih hx
    obtain ⟨w, Z, h4, h5, h6⟩ := ha.forward hB h3
    refine ⟨w, Z, ?_, by rw [torchForward_snoc _ _ h2, h5], h6⟩
    rw [List.map_append, List.map_singleton, torchForward_snoc _ _ h1, h4]

theorem TypedC.ids {i : Nat} {s s' : List Nat} {n k p l : Nat} {ls : List (TorchLayer ℝ)} {c : Chain s n s' k p l} (h : TypedC i ls c) :
    c.ids = (List.range l).map fun j => 2 * (i + j) := by
  induction h with
  | nil => simp [Chain.ids]
  | snoc _ ha ih => rw [Chain.ids, ih, ha.ids.1, List.range_succ, List.map_append]; rfl

theorem TypedC.ids_mem {i : Nat} {s s' : List Nat} {n k p l : Nat} {ls : List (TorchLayer ℝ)} {c : Chain s n s' k p l} (h : TypedC i ls c)
    (j : Nat) : j ∈ c.ids ↔ ∃ a, a < l ∧ 2 * (i + a) = j := by
  rw [h.ids]; simp

/-- wiredness of a layer depends on its own parameters only -/
theorem Typed.wired_frame {i : Nat} {s s' : List Nat} {n k p : Nat} {a : TorchLayer ℝ} {N : Net s n s' k p} (h : Typed i a N) {st st' : Store ℝ}
    (h0 : st'.param (2 * i) = st.param (2 * i)) (h1 : st'.param (2 * i + 1) = st.param (2 * i + 1)) (hw : N.Wired st) : N.Wired st' := by
  cases h <;> simp_all [Net.Wired]

theorem TypedC.pre_frame {i : Nat} {s s' : List Nat} {n k p l : Nat} {ls : List (TorchLayer ℝ)} {c : Chain s n s' k p l} (h : TypedC i ls c)
    {st st' : Store ℝ} (hp : ∀ j, 2 * i ≤ j → j < 2 * (i + l) → st'.param j = st.param j) (hh : st'.hooks = st.hooks) (hc : c.Pre st) : c.Pre st' := by
  induction h with
  | nil => simp [Chain.Pre]
  | snoc _ ha ih =>
    simp only [Chain.Pre] at hc ⊢
    exact ⟨ih (fun j h1 h2 => hp j h1 (by omega)) hc.1, ha.wired_frame (hp _ (by omega) (by omega)) (hp _ (by omega) (by omega)) hc.2.1, by rw [hh]; exact hc.2.2⟩

theorem TypedC.run {i : Nat} {s s' : List Nat} {n k p l : Nat} {ls : List (TorchLayer ℝ)} {c : Chain s n s' k p l} (h : TypedC i ls c)
    (st : Store ℝ) (hst : Fresh i st) :
    ∃ st1, convertLayers i ls st = (.ok c.mods, st1) ∧ c.Pre st1 ∧ st1.hooks = st.hooks := by
  induction h with
  | nil => exact ⟨st, by rw [Chain.mods]; rfl, by simp only [Chain.Pre], rfl⟩
  | @snoc _ _ _ _ _ _ _ l ls a c m hc ha ih =>
    obtain ⟨st1, h1, hpre, hh⟩ := ih
    obtain ⟨st2, h2, hw, hf⟩ := ha.run st1
    refine ⟨st2, ?_, ?_, hf.hooks.trans hh⟩
    · rw [Chain.mods]
      exact convertLayers_snoc i ls a h1 (by rw [hc.length]; exact h2)
    · simp only [Chain.Pre]
      refine ⟨hc.pre_frame (fun j _ h' => hf.param j (by omega) (by omega)) hf.hooks hpre, hw, ?_⟩
      rw [hf.hooks, hh, ha.ids.2]
      exact hst _ (by omega)

theorem TypedC.convert {i : Nat} {s s' : List Nat} {n k p l : Nat} {ls : List (TorchLayer ℝ)} {c : Chain s n s' k p (l + 1)} (h : TypedC i ls c)
    (st : Store ℝ) (hst : Fresh i st) :
    ∃ st', convertToNnj i ls st = (.ok (Net.seq (2 * (i + l + 1)) c).mod, st') ∧ (Net.seq (2 * (i + l + 1)) c).Ok st' := by
  obtain ⟨st1, h1, hpre, hh⟩ := h.run st hst
  have hnd : (2 * (i + l + 1) :: c.ids).Nodup := by
    rw [List.nodup_cons]
    constructor
    · rw [h.ids_mem]
      rintro ⟨a, h1, h2⟩
      omega
    · rw [h.ids]
      exact List.Nodup.map (fun a b hab => by simpa using hab) List.nodup_range
  obtain ⟨m, st', hr, rfl, hf, hw, -, -⟩ := seq_init_run c (2 * (i + l + 1)) hnd hpre (by rw [hh]; exact hst _ (by omega))
  refine ⟨st', ?_, by simpa only [Net.ids] using hnd, by simp only [Net.Wired]; exact ⟨hf, hw⟩⟩
  rw [convertToNnj, Prog.bind_ok h1, h.length, Net.mod]
  exact hr

end Utils
end NNJ
