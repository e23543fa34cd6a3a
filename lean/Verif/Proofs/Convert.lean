import Verif.Spec.Convert
import Verif.Proofs.ProgLemmas

/-! Running `convert_to_nnj`. -/

namespace NNJ
namespace Utils
open Tensor

/-- the constructor of layer number `i` changes nothing else -/
structure Frame (i : Nat) (st st1 : Store ℝ) : Prop where
  param : ∀ j, j ≠ 2 * i → j ≠ 2 * i + 1 → st1.param j = st.param j
  hooks : st1.hooks = st.hooks
  fmaps : ∀ j, j ≠ 2 * i → j ≠ 2 * i + 1 → st1.fmaps j = st.fmaps j

/-- what a forward pass leaves alone -/
structure After (s s' : Store ℝ) : Prop where
  param : s'.param = s.param
  hooks : s'.hooks = s.hooks
  fmaps : ∀ j, (s.fmaps j).isSome → (s'.fmaps j).isSome

theorem After.refl {s : Store ℝ} : After s s := ⟨rfl, rfl, fun _ h => h⟩
theorem After.trans {s s' s'' : Store ℝ} (h : After s s') (h' : After s' s'') : After s s'' :=
  ⟨h'.param.trans h.param, h'.hooks.trans h.hooks, fun j hj => h'.fmaps j (h.fmaps j hj)⟩

/-- module number `i` computes `f` when its parameters are those in `P` -/
def Imp (m : Mod ℝ) (i : Nat) (f : Tensor ℝ → Res (Tensor ℝ)) (P : Nat → Tensor ℝ) : Prop :=
  ∀ s : Store ℝ, s.param (2 * i) = P (2 * i) → s.param (2 * i + 1) = P (2 * i + 1) → s.hooks (2 * i + 1) = [] →
    ∀ x, ∃ s', m.forward x s = (f x, s') ∧ After s s'

theorem imp_pure {L : Store ℝ → PureLayer ℝ} {id np : Nat} {ps : List Nat} {i : Nat} {f : Tensor ℝ → Res (Tensor ℝ)} {P : Nat → Tensor ℝ}
    (h : ∀ s : Store ℝ, s.param (2 * i) = P (2 * i) → s.param (2 * i + 1) = P (2 * i + 1) → (L s).forward = f) :
    Imp (PureLayer.toMod L id np ps) i f P := by
  intro s h1 h2 _ x
  exact ⟨s, by rw [← h s h1 h2]; rfl, .refl⟩

/-- the state with new parameters number `i` -/
def withParams (i : Nat) (w b : Tensor ℝ) (st : Store ℝ) : Store ℝ :=
  { st with param := fun j => if j = 2 * i + 1 then b else if j = 2 * i then w else st.param j }

theorem frame_withParams (i : Nat) (w b : Tensor ℝ) (st : Store ℝ) : Frame i st (withParams i w b st) :=
  ⟨fun j h1 h2 => by simp [withParams, h1, h2], rfl, fun _ _ _ => rfl⟩

theorem frame_refl {i : Nat} {st : Store ℝ} : Frame i st st := ⟨fun _ _ _ => rfl, rfl, fun _ _ _ => rfl⟩

theorem withParams_w (i : Nat) (w b : Tensor ℝ) (st : Store ℝ) : (withParams i w b st).param (2 * i) = w := by
  simp [withParams]
theorem withParams_b (i : Nat) (w b : Tensor ℝ) (st : Store ℝ) : (withParams i w b st).param (2 * i + 1) = b := by
  simp [withParams]

theorem convert_linear (i inF outF : Nat) (w b : Tensor ℝ) (st : Store ℝ) :
    convertLayer i (.linear inF outF w (some b)) st =
      (.ok (Linear.mod (2 * i) (2 * i) (some (2 * i + 1)) inF outF), withParams i w b st) := rfl

theorem convert_conv (i : Nat) (cfg : Conv2d.Cfg) (w b : Tensor ℝ) (st : Store ℝ) :
    convertLayer i (.conv2d cfg w (some b)) st =
      (.ok (Conv2d.mod { inChannels := cfg.inChannels, outChannels := cfg.outChannels, kernel := cfg.kernel } (2 * i) (2 * i) (2 * i + 1)),
        withParams i w b st) := by
  simp only [convertLayer, Conv2d.init]
  rw [if_neg (by simp [Nat.mod_one]), if_neg (by simp)]
  rfl

/-- the constructor `nnj.Sequential()` -/
def withSeq (id : Nat) (st : Store ℝ) : Store ℝ := { st with fmaps := fun j => if j = id then some [] else st.fmaps j }

theorem convert_sequential (i : Nat) (ls : List (TorchLayer ℝ)) (st : Store ℝ) :
    convertLayer i (.sequential ls) st = (.ok (Sequential.mod (2 * i) true []), withSeq (2 * i) st) := rfl
theorem convert_skip (i : Nat) (ls : List (TorchLayer ℝ)) (st : Store ℝ) :
    convertLayer i (.skip ls) st = (.ok (SkipConnection.mod (2 * i) (Sequential.mod (2 * i + 1) true [])), withSeq (2 * i + 1) st) := rfl

theorem seq_nil_forward (id : Nat) (x : Tensor ℝ) (s : Store ℝ) :
    (Sequential.mod id true ([] : List (Mod ℝ))).forward x s = (.ok x, { s with fmaps := fun j => if j = id then some [x] else s.fmaps j }) := rfl

theorem after_fmaps (id : Nat) (l : List (Tensor ℝ)) (s : Store ℝ) : After s { s with fmaps := fun j => if j = id then some l else s.fmaps j } := by
  refine ⟨rfl, rfl, fun j hj => ?_⟩
  show (if j = id then some l else s.fmaps j).isSome
  split
  · rfl
  · exact hj

theorem runHooks_ok (v : Tensor ℝ) (hs : List Nat) (s : Store ℝ) (h : ∀ q ∈ hs, (s.fmaps q).isSome) :
    ∃ s', Mod.runHooks v hs s = (.ok (), s') ∧ After s s' := by
  induction hs generalizing s with
  | nil => exact ⟨s, rfl, .refl⟩
  | cons q hs ih =>
    obtain ⟨l, hl⟩ := Option.isSome_iff_exists.1 (h q (by simp))
    have h1 : Mod.runHook v q s = (.ok (), { s with fmaps := fun j => if j = q then some (l ++ [v]) else s.fmaps j }) := by
      rw [Mod.runHook, hl]
    have ha := after_fmaps q (l ++ [v]) s
    obtain ⟨s', h2, h3⟩ := ih _ fun q' hq' => ha.fmaps q' (h q' (by simp [hq']))
    exact ⟨s', by rw [Mod.runHooks, Prog.bind_ok h1, h2], ha.trans h3⟩

theorem call_ok {m : Mod ℝ} {i : Nat} {f : Tensor ℝ → Res (Tensor ℝ)} {P : Nat → Tensor ℝ} (hm : Imp m i f P) {s : Store ℝ}
    (h1 : s.param (2 * i) = P (2 * i)) (h2 : s.param (2 * i + 1) = P (2 * i + 1)) (h3 : s.hooks (2 * i + 1) = [])
    (hh : ∀ q ∈ s.hooks m.id, (s.fmaps q).isSome) (x : Tensor ℝ) : ∃ s', m.call x s = (f x, s') ∧ After s s' := by
  obtain ⟨s1, hf, ha⟩ := hm s h1 h2 h3 x
  rw [Mod.call]
  rcases hx : f x with e | v
  · exact ⟨s1, Prog.bind_error (by rw [hf, hx]), ha⟩
  · obtain ⟨s2, hr, ha2⟩ := runHooks_ok v (s1.hooks m.id) s1 fun q hq => ha.fmaps q (hh q (by rwa [ha.hooks] at hq))
    refine ⟨s2, ?_, ha.trans ha2⟩
    rw [Prog.bind_ok (by rw [hf, hx]), Prog.bind_read_run, Prog.bind_ok hr]
    rfl

theorem convertLayer_run (l : TorchLayer ℝ) (hl : l.Supported) (i : Nat) (st : Store ℝ) :
    ∃ m st1, convertLayer i l st = (.ok m, st1) ∧ m.id = 2 * i ∧ Frame i st st1 ∧ Imp m i l.dropped.forward st1.param := by
  have e20 : ((20 : Nat) : ℝ) = 20 := by norm_num
  have e6 : (1 / ((1000000 : Nat) : ℝ)) = 1 / 1000000 := by norm_num
  cases l with
  | linear inF outF w b =>
    cases b with
    | none => exact absurd hl (by simp [TorchLayer.Supported])
    | some b =>
      refine ⟨_, _, convert_linear i inF outF w b st, rfl, frame_withParams i w b st, imp_pure fun s h1 h2 => ?_⟩
      rw [withParams_w] at h1
      rw [withParams_b] at h2
      funext x
      show Linear.forward (s.param (2 * i)) (some (s.param (2 * i + 1))) x = _
      rw [h1, h2, TorchLayer.dropped, TorchLayer.forward]
      rfl
      all_goals simp
  | conv2d cfg w b =>
    cases b with
    | none => exact absurd hl (by simp [TorchLayer.Supported])
    | some b =>
      refine ⟨_, _, convert_conv i cfg w b st, rfl, frame_withParams i w b st, imp_pure fun s h1 h2 => ?_⟩
      rw [withParams_w] at h1
      rw [withParams_b] at h2
      funext x
      show Conv2d.forward _ (s.param (2 * i)) (some (s.param (2 * i + 1))) x = _
      rw [h1, h2, TorchLayer.dropped, TorchLayer.forward]
      rfl
  | maxPool2d a =>
    refine ⟨_, _, rfl, rfl, frame_refl, fun s _ _ _ x => ?_⟩
    show ∃ s', MaxPool2d.forward (2 * i) _ x s = _ ∧ _
    rw [MaxPool2d.forward, TorchLayer.dropped, TorchLayer.forward]
    rcases Torch.maxPool2d x { kernel := a.kernel, stride := a.kernel } with e | ⟨v, idx⟩
    · exact ⟨s, rfl, .refl⟩
    · exact ⟨_, rfl, rfl, rfl, fun _ h => h⟩
  | otherPool => exact hl.elim
  | other => exact hl.elim
  | relu => exact ⟨_, _, rfl, rfl, frame_refl, imp_pure fun s _ _ => by funext x; rw [TorchLayer.dropped, TorchLayer.forward]; rfl; all_goals simp⟩
  | sigmoid => exact ⟨_, _, rfl, rfl, frame_refl, imp_pure fun s _ _ => by funext x; rw [TorchLayer.dropped, TorchLayer.forward]; rfl; all_goals simp⟩
  | tanh => exact ⟨_, _, rfl, rfl, frame_refl, imp_pure fun s _ _ => by funext x; rw [TorchLayer.dropped, TorchLayer.forward]; rfl; all_goals simp⟩
  | softplus b t =>
    refine ⟨_, _, rfl, rfl, frame_refl, imp_pure fun s _ _ => ?_⟩
    funext x
    rw [TorchLayer.dropped, TorchLayer.forward, ← e20]; rfl
  | flatten => exact ⟨_, _, rfl, rfl, frame_refl, imp_pure fun s _ _ => by funext x; rw [TorchLayer.dropped, TorchLayer.forward]; rfl; all_goals simp⟩
  | nnFlatten => exact ⟨_, _, rfl, rfl, frame_refl, imp_pure fun s _ _ => by funext x; rw [TorchLayer.dropped, TorchLayer.forward]; rfl⟩
  | nnFlattenAt i j => exact ⟨_, _, rfl, rfl, frame_refl, imp_pure fun s _ _ => by funext x; rw [TorchLayer.dropped, TorchLayer.forward]; rfl⟩
  | upsample o => exact ⟨_, _, rfl, rfl, frame_refl, imp_pure fun s _ _ => by funext x; rw [TorchLayer.dropped, TorchLayer.forward]; rfl⟩
  | likelihood => exact hl.elim
  | sinusoidal => exact ⟨_, _, rfl, rfl, frame_refl, imp_pure fun s _ _ => by funext x; rw [TorchLayer.dropped, TorchLayer.forward]; rfl; all_goals simp⟩
  | truncExp => exact ⟨_, _, rfl, rfl, frame_refl, imp_pure fun s _ _ => by funext x; rw [TorchLayer.dropped, TorchLayer.forward]; rfl; all_goals simp⟩
  | l2norm eps =>
    refine ⟨_, _, rfl, rfl, frame_refl, imp_pure fun s _ _ => ?_⟩
    funext x
    rw [TorchLayer.dropped, TorchLayer.forward, ← e6]; rfl
  | reshape dims => exact ⟨_, _, rfl, rfl, frame_refl, imp_pure fun s _ _ => by funext x; rw [TorchLayer.dropped, TorchLayer.forward]; rfl⟩
  | sequential ls =>
    refine ⟨_, _, convert_sequential i ls st, rfl, ⟨fun _ _ _ => rfl, rfl, fun j h1 _ => by simp [withSeq, h1]⟩, fun s _ _ _ x => ?_⟩
    refine ⟨_, ?_, after_fmaps (2 * i) [x] s⟩
    rw [seq_nil_forward, TorchLayer.dropped, TorchLayer.forward, torchForward]
  | skip ls =>
    refine ⟨_, _, convert_skip i ls st, rfl, ⟨fun _ _ _ => rfl, rfl, fun j _ h2 => by simp [withSeq, h2]⟩, fun s _ _ h3 x => ?_⟩
    have hc : (Sequential.mod (2 * i + 1) true ([] : List (Mod ℝ))).call x s =
        (.ok x, { s with fmaps := fun j => if j = 2 * i + 1 then some [x] else s.fmaps j }) := by
      rw [Mod.call, Prog.bind_ok (seq_nil_forward (2 * i + 1) x s), Prog.bind_read_run]
      show (do Mod.runHooks x (s.hooks (2 * i + 1)); pure x : Prog ℝ (Tensor ℝ)) _ = _
      rw [h3]
      rfl
    refine ⟨_, ?_, after_fmaps (2 * i + 1) [x] s⟩
    show SkipConnection.forward _ x s = _
    rw [SkipConnection.forward, Prog.bind_ok hc, TorchLayer.dropped, TorchLayer.forward, torchForward]
    rfl

/-- module after module -/
inductive Imps (P : Nat → Tensor ℝ) : Nat → List (Mod ℝ) → List (TorchLayer ℝ) → Prop
  | nil {i : Nat} : Imps P i [] []
  | cons {i : Nat} {m : Mod ℝ} {ms : List (Mod ℝ)} {l : TorchLayer ℝ} {ls : List (TorchLayer ℝ)} : m.id = 2 * i →
      Imp m i l.forward P → Imps P (i + 1) ms ls → Imps P i (m :: ms) (l :: ls)

theorem convertLayers_run (ls : List (TorchLayer ℝ)) (hl : ∀ l ∈ ls, l.Supported) (i : Nat) (st : Store ℝ) :
    ∃ ms st1, convertLayers i ls st = (.ok ms, st1) ∧ Imps st1.param i ms (ls.map TorchLayer.dropped) ∧ st1.hooks = st.hooks ∧
      (∀ j, j < 2 * i ∨ 2 * (i + ls.length) ≤ j → st1.param j = st.param j ∧ st1.fmaps j = st.fmaps j) := by
  induction ls generalizing i st with
  | nil => exact ⟨[], st, rfl, .nil, rfl, fun _ _ => ⟨rfl, rfl⟩⟩
  | cons l ls ih =>
    obtain ⟨m, st1, h1, hid, hf, hI⟩ := convertLayer_run l (hl l (by simp)) i st
    obtain ⟨ms, st2, h2, hIs, hh, hfr⟩ := ih (fun l' h => hl l' (by simp [h])) (i + 1) st1
    refine ⟨m :: ms, st2, ?_, ?_, hh.trans hf.hooks, fun j hj => ?_⟩
    · rw [convertLayers, Prog.bind_ok h1, Prog.bind_ok h2]
      rfl
    · refine .cons hid (fun s h1 h2 => ?_) hIs
      rw [(hfr (2 * i) (by omega)).1] at h1
      rw [(hfr (2 * i + 1) (by omega)).1] at h2
      exact hI s h1 h2
    · simp only [List.length_cons] at hj
      obtain ⟨hp, hm⟩ := hfr j (by omega)
      exact ⟨hp.trans (hf.param j (by omega) (by omega)), hm.trans (hf.fmaps j (by omega) (by omega))⟩

/-- the state fits: parameters, and hooks only of objects with feature maps -/
structure Fits (P : Nat → Tensor ℝ) (i n : Nat) (s : Store ℝ) : Prop where
  param : ∀ j, 2 * i ≤ j → j < 2 * (i + n) → s.param j = P j
  odd : ∀ j, i ≤ j → s.hooks (2 * j + 1) = []
  even : ∀ j, ∀ q ∈ s.hooks j, 2 * i ≤ j → (s.fmaps q).isSome

theorem Fits.after {P : Nat → Tensor ℝ} {i n : Nat} {s s' : Store ℝ} (h : Fits P i n s) (ha : After s s') : Fits P i n s' :=
  ⟨fun j h1 h2 => by rw [ha.param]; exact h.param j h1 h2, fun j hj => by rw [ha.hooks]; exact h.odd j hj,
    fun j q hq hj => ha.fmaps q (h.even j q (by rwa [ha.hooks] at hq) hj)⟩

theorem run_ok {P : Nat → Tensor ℝ} {i : Nat} {ms : List (Mod ℝ)} {ls : List (TorchLayer ℝ)} (h : Imps P i ms ls) :
    ∀ {s : Store ℝ}, Fits P i ls.length s → ∀ x, ∃ s', Sequential.run ms x s = (torchForward ls x, s') ∧ After s s' := by
  induction h with
  | nil => exact fun {s} _ x => ⟨s, by rw [Sequential.run, torchForward]; rfl, .refl⟩
  | @cons i m ms l ls hid hm _ ih =>
    intro s hs x
    simp only [List.length_cons] at hs
    obtain ⟨s1, hc, ha⟩ := call_ok hm (hs.param _ (by omega) (by omega)) (hs.param _ (by omega) (by omega)) (hs.odd i (by omega))
      (fun q hq => hs.even _ q hq (by omega)) x
    rw [Sequential.run, torchForward]
    rcases hx : l.forward x with e | v
    · exact ⟨s1, Prog.bind_error (by rw [hc, hx]), ha⟩
    · have hs1 := hs.after ha
      obtain ⟨s2, hr, ha2⟩ := ih (s := s1) ⟨fun j h1 h2 => hs1.param j (by omega) (by omega), fun j hj => hs1.odd j (by omega),
        fun j q hq hj => hs1.even j q hq (by omega)⟩ v
      exact ⟨s2, by rw [Prog.bind_ok (by rw [hc, hx]), hr]; rfl, ha.trans ha2⟩

theorem register_mem (q : Nat) (ms : List (Mod ℝ)) (h : Nat → List Nat) (j q' : Nat) (hq : q' ∈ Sequential.register q ms h j) :
    q' ∈ h j ∨ (q' = q ∧ ∃ m ∈ ms, m.id = j) := by
  induction ms generalizing h with
  | nil => exact Or.inl hq
  | cons m ms ih =>
    rcases ih _ hq with h1 | ⟨rfl, m', hm', hj⟩
    · by_cases hj : j = m.id
      · rw [if_pos hj] at h1
        rcases List.mem_append.1 h1 with h2 | h2
        · exact Or.inl h2
        · exact Or.inr ⟨by simpa using h2, m, by simp, hj.symm⟩
      · rw [if_neg hj] at h1
        exact Or.inl h1
    · exact Or.inr ⟨rfl, m', by simp [hm'], hj⟩

theorem Imps.even {P : Nat → Tensor ℝ} {i : Nat} {ms : List (Mod ℝ)} {ls : List (TorchLayer ℝ)} (h : Imps P i ms ls) :
    ∀ m ∈ ms, ∃ j, i ≤ j ∧ j < i + ls.length ∧ m.id = 2 * j := by
  induction h with
  | nil => simp
  | @cons i m ms l ls hid _ _ ih =>
    intro m' hm'
    rcases List.mem_cons.1 hm' with rfl | hm'
    · exact ⟨i, by omega, by simp, hid⟩
    · obtain ⟨j, h1, h2, h3⟩ := ih m' hm'
      exact ⟨j, by omega, by simp only [List.length_cons]; omega, h3⟩

/-- conversion of supported layers -/
theorem convert_run (ls : List (TorchLayer ℝ)) (hl : ∀ l ∈ ls, l.Supported) (i : Nat) (st : Store ℝ) (hst : Fresh i st) :
    ∃ m st1, convertToNnj i ls st = (.ok m, st1) ∧ (∀ j, j < 2 * i → st1.param j = st.param j ∧ st1.fmaps j = st.fmaps j ∧ st1.hooks j = st.hooks j) ∧
      ∀ s, After st1 s → ∀ x, ∃ s', m.forward x s = (torchForward (ls.map TorchLayer.dropped) x, s') ∧ After s s' := by
  obtain ⟨ms, st1, h1, hI, hh, hfr⟩ := convertLayers_run ls hl i st
  have hev := hI.even
  rw [List.length_map] at hev
  have hreg : ∀ j q', q' ∈ Sequential.register (2 * (i + ls.length)) ms st1.hooks j →
      q' ∈ st.hooks j ∨ (q' = 2 * (i + ls.length) ∧ ∃ m ∈ ms, m.id = j) := by
    intro j q' hq'
    rw [← hh]
    exact register_mem _ _ _ _ _ hq'
  have hlow : ∀ (ms : List (Mod ℝ)) (h : Nat → List Nat) (j : Nat), (∀ m ∈ ms, m.id ≠ j) → Sequential.register (2 * (i + ls.length)) ms h j = h j := by
    intro ms
    induction ms with
    | nil => intro h j _; rfl
    | cons m ms ih =>
      intro h j hj
      rw [Sequential.register, ih _ _ fun m' hm' => hj m' (by simp [hm'])]
      rw [if_neg (fun e => hj m (by simp) e.symm)]
  refine ⟨Sequential.mod (2 * (i + ls.length)) true ms, _, by rw [convertToNnj, Prog.bind_ok h1]; rfl, fun j hj => ?_, fun s ha x => ?_⟩
  · refine ⟨(hfr j (by omega)).1, ?_, ?_⟩
    · show (if j = _ then _ else st1.fmaps j) = _
      rw [if_neg (by omega), (hfr j (by omega)).2]
    · show Sequential.register _ ms st1.hooks j = _
      rw [hlow ms st1.hooks j (fun m hm e => by obtain ⟨j', h1, _, h3⟩ := hev m hm; omega), hh]
  · have hfit : Fits st1.param i (ls.map TorchLayer.dropped).length s := by
      refine ⟨fun j _ _ => by rw [ha.param], fun j hj => ?_, fun j q hq hj => ?_⟩
      · rw [ha.hooks]
        show Sequential.register _ ms st1.hooks (2 * j + 1) = []
        rw [hlow ms st1.hooks _ (fun m hm e => by obtain ⟨j', h1, _, h3⟩ := hev m hm; omega), hh]
        exact hst _ (by omega)
      · rw [ha.hooks] at hq
        rcases hreg j q hq with h | ⟨rfl, _⟩
        · rw [hst j hj] at h
          simp at h
        · refine ha.fmaps _ ?_
          show (if _ = _ then _ else _ : Option _).isSome
          rw [if_pos rfl]
          rfl
    have hfit' := hfit.after (after_fmaps (2 * (i + ls.length)) [x] s)
    obtain ⟨s', hr, ha'⟩ := run_ok hI hfit' x
    refine ⟨s', ?_, (after_fmaps (2 * (i + ls.length)) [x] s).trans ha'⟩
    rw [← hr]
    rfl

/-- the two flattening functions agree on nonempty tensors with at least two dimensions -/
theorem nnFlatten_eq {x : Tensor ℝ} {b c : Nat} {s : List Nat} (hx : x.shape = b :: c :: s) (h0 : size x.shape ≠ 0) :
    nnFlattenForward x = Resh.flattenForward x := by
  have hb : b ≠ 0 := by
    rintro rfl
    rw [hx] at h0
    simp [size] at h0
  have hn : x.numel = b * size (c :: s) := by rw [Tensor.numel, hx]; rfl
  have h1 : size [b] * size ([] : List Nat) = b := by simp [size]
  have hd : x.dim 0 = .ok b := by simp [Tensor.dim, hx]
  rw [Resh.flattenForward, hd]
  show _ = x.reshapeInfer [b] []
  rw [nnFlattenForward, hx, Tensor.reshapeInfer]
  simp only [h1]
  rw [if_neg hb, hn, Nat.mul_mod_right, if_pos rfl, Nat.mul_div_cancel_left _ (Nat.pos_of_ne_zero hb)]
  rfl

theorem nnFlatten_ok {x v : Tensor ℝ} (h : nnFlattenForward x = .ok v) (h0 : size x.shape ≠ 0) : Resh.flattenForward x = .ok v := by
  rcases hs : x.shape with _ | ⟨b, _ | ⟨c, s⟩⟩
  · rw [nnFlattenForward, hs] at h; cases h
  · rw [nnFlattenForward, hs] at h; cases h
  · rw [← nnFlatten_eq hs h0, h]

theorem torchForward_cons_ok {l : TorchLayer ℝ} {ls : List (TorchLayer ℝ)} {x v : Tensor ℝ} (h : l.forward x = .ok v) :
    torchForward (l :: ls) x = torchForward ls v := by
  rw [torchForward, h]; rfl

/-- with nonempty values throughout, `torch.nn.Flatten` is as good as `nnj.Flatten` -/
theorem dropped_forward (ls : List (TorchLayer ℝ)) (hl : ∀ l ∈ ls, l.dropped = l ∨ l = .nnFlatten) (x : Tensor ℝ)
    (h0 : ∀ ls', ls' <+: ls → ∀ v, torchForward ls' x = .ok v → size v.shape ≠ 0) (v : Tensor ℝ) (h : torchForward ls x = .ok v) :
    torchForward (ls.map TorchLayer.dropped) x = .ok v := by
  induction ls generalizing x with
  | nil => exact h
  | cons l ls ih =>
    rw [torchForward] at h
    rcases hv : l.forward x with e | w
    · rw [hv] at h; cases h
    · rw [hv] at h
      have hw : l.dropped.forward x = .ok w := by
        rcases hl l (by simp) with hd | rfl
        · rw [hd, hv]
        · rw [TorchLayer.forward] at hv
          rw [TorchLayer.dropped, TorchLayer.forward]
          exact nnFlatten_ok hv (h0 [] (by simp) x (by rw [torchForward]))
      rw [List.map_cons, torchForward_cons_ok hw]
      refine ih (fun l' h' => hl l' (by simp [h'])) w (fun ls' hp u hu => ?_) h
      refine h0 (l :: ls') (by simpa using hp) u ?_
      rw [torchForward_cons_ok hv, hu]

theorem torchForward_snoc (ls : List (TorchLayer ℝ)) (a : TorchLayer ℝ) {x v : Tensor ℝ} (h : torchForward ls x = .ok v) :
    torchForward (ls ++ [a]) x = a.forward v := by
  induction ls generalizing x with
  | nil =>
    rw [torchForward] at h
    cases h
    rw [List.nil_append, torchForward]
    rcases a.forward v with e | w
    · rfl
    · show torchForward [] w = _
      rw [torchForward]
  | cons l ls ih =>
    rw [torchForward] at h
    rcases hv : l.forward x with e | w
    · rw [hv] at h; cases h
    · rw [hv] at h
      rw [List.cons_append, torchForward_cons_ok hv, ih h]

/-- the class of the exception -/
noncomputable def TorchLayer.refusal : TorchLayer ℝ → Err
  | .likelihood => .assertion
  | _ => .attribute

/-- conversion of other layers -/
theorem convertLayer_error (l : TorchLayer ℝ) (hl : ¬ l.Supported) (i : Nat) (st : Store ℝ) :
    ∃ st1, convertLayer i l st = (.error l.refusal, st1) := by
  cases l with
  | linear inF outF w b =>
    cases b with
    | none => exact ⟨_, rfl⟩
    | some b => exact absurd rfl hl
  | conv2d cfg w b =>
    cases b with
    | none =>
      refine ⟨{ st with param := fun j => if j = 2 * i then w else st.param j }, ?_⟩
      simp only [convertLayer, Conv2d.init]
      rw [if_neg (by simp [Nat.mod_one]), if_neg (by simp)]
      rfl
    | some b => exact absurd rfl hl
  | otherPool => exact ⟨_, rfl⟩
  | other => exact ⟨_, rfl⟩
  | likelihood => exact ⟨_, rfl⟩
  | _ => exact absurd trivial hl

/-- the first layer that is not supported decides -/
theorem convertLayers_error (pre : List (TorchLayer ℝ)) (hp : ∀ l ∈ pre, l.Supported) (l : TorchLayer ℝ) (hl : ¬ l.Supported) (post : List (TorchLayer ℝ))
    (i : Nat) (st : Store ℝ) : ∃ st1, convertLayers i (pre ++ l :: post) st = (.error l.refusal, st1) := by
  induction pre generalizing i st with
  | nil =>
    obtain ⟨st1, h1⟩ := convertLayer_error l hl i st
    exact ⟨st1, by rw [List.nil_append, convertLayers, Prog.bind_error h1]⟩
  | cons a pre ih =>
    obtain ⟨m, st1, h1, _⟩ := convertLayer_run a (hp a (by simp)) i st
    obtain ⟨st2, h2⟩ := ih (fun l' h => hp l' (by simp [h])) (i + 1) st1
    exact ⟨st2, by rw [List.cons_append, convertLayers, Prog.bind_ok h1, Prog.bind_error h2]⟩

theorem convert_error (pre : List (TorchLayer ℝ)) (hp : ∀ l ∈ pre, l.Supported) (l : TorchLayer ℝ) (hl : ¬ l.Supported) (post : List (TorchLayer ℝ))
    (i : Nat) (st : Store ℝ) : ∃ st1, convertToNnj i (pre ++ l :: post) st = (.error l.refusal, st1) := by
  obtain ⟨st1, h⟩ := convertLayers_error pre hp l hl post i st
  exact ⟨st1, by rw [convertToNnj, Prog.bind_error h]⟩

/-- the first layer that is not supported -/
theorem first_unsupported (ls : List (TorchLayer ℝ)) (h : ∃ l ∈ ls, ¬ l.Supported) :
    ∃ pre l post, ls = pre ++ l :: post ∧ (∀ a ∈ pre, a.Supported) ∧ ¬ l.Supported := by
  induction ls with
  | nil => simp at h
  | cons a ls ih =>
    by_cases ha : a.Supported
    · obtain ⟨pre, l, post, rfl, hp, hl⟩ := ih (by obtain ⟨l', hm, hl'⟩ := h; rcases List.mem_cons.1 hm with rfl | hm; exacts [absurd ha hl', ⟨l', hm, hl'⟩])
      exact ⟨a :: pre, l, post, rfl, fun b hb => by rcases List.mem_cons.1 hb with rfl | hb; exacts [ha, hp b hb], hl⟩
    · exact ⟨[], a, ls, rfl, by simp, ha⟩

/-- one layer that never returns spoils the network -/
theorem torchForward_error {ls : List (TorchLayer ℝ)} {l : TorchLayer ℝ} (hm : l ∈ ls) (hl : ∀ x, ∃ e, l.forward x = .error e) (x : Tensor ℝ) :
    ∃ e, torchForward ls x = .error e := by
  induction ls generalizing x with
  | nil => simp at hm
  | cons a ls ih =>
    rw [torchForward]
    rcases ha : a.forward x with e | v
    · exact ⟨e, rfl⟩
    · rcases List.mem_cons.1 hm with rfl | hm
      · obtain ⟨e, he⟩ := hl x
        rw [he] at ha; cases ha
      · exact ih hm v

/-- `nnj.Upsample()` -/
theorem upsample_default (x : Tensor ℝ) : ∃ e, (TorchLayer.upsample {}).forward x = .error e := by
  rw [TorchLayer.forward, Upsample.Options.forward]
  split
  · exact ⟨_, rfl⟩
  · exact ⟨_, rfl⟩

/-- the default arguments -/
theorem nnFlattenAt_default (x : Tensor ℝ) : nnFlattenAtForward 1 (-1) x = nnFlattenForward x := by
  obtain ⟨s, d⟩ := x
  match s with
  | [] => rfl
  | [b] => rfl
  | b :: c :: s =>
    have h1 : wrapDim 1 (b :: c :: s).length = .ok 1 := by
      simp only [wrapDim, List.length_cons]
      rw [if_pos (by omega)]
      rfl
    have h2 : wrapDim (-1) (b :: c :: s).length = .ok (s.length + 1) := by
      simp only [wrapDim, List.length_cons]
      rw [if_pos (by omega), if_pos (by omega)]
      congr 1
      omega
    simp only [nnFlattenAtForward, h1, h2, nnFlattenForward]
    simp [bind, Except.bind]

theorem wrapDim_front {r i : Nat} (h : i < r) : wrapDim i r = .ok i := by
  simp only [wrapDim]
  rw [if_pos (by omega), if_neg (by omega)]
  simp

theorem wrapDim_back {r i : Nat} (h : i < r) : wrapDim ((i : Int) - r) r = .ok i := by
  simp only [wrapDim]
  rw [if_pos (by omega), if_pos (by omega)]
  congr 1
  omega

theorem wrapDim_error {r : Nat} {d : Int} (hr : 0 < r) (h : d < -r ∨ r ≤ d) : wrapDim d r = .error .index := by
  simp only [wrapDim]
  rw [if_neg (by omega)]

theorem wrapDim_index {r : Nat} {d : Int} {e : Err} (h : wrapDim d r = .error e) : e = .index := by
  simp only [wrapDim] at h
  split at h <;> simp_all

theorem nnFlattenAt_merges (s m s' : List Nat) (hm : m ≠ []) (d : Nat → ℝ) {a b : Int}
    (ha : a = s.length ∨ a = s.length - (s ++ m ++ s').length)
    (hb : b = s.length + m.length - 1 ∨ b = s.length + m.length - 1 - (s ++ m ++ s').length) :
    nnFlattenAtForward a b (⟨s ++ m ++ s', d⟩ : Tensor ℝ) = .ok ⟨s ++ size m :: s', d⟩ := by
  have hl : 0 < m.length := List.length_pos_iff.2 hm
  have hr : (s ++ m ++ s').length = s.length + m.length + s'.length := by simp [Nat.add_assoc]
  have h1 : wrapDim a (s ++ m ++ s').length = .ok s.length := by
    rcases ha with rfl | rfl
    · exact wrapDim_front (by omega)
    · exact wrapDim_back (by omega)
  have h2 : wrapDim b (s ++ m ++ s').length = .ok (s.length + m.length - 1) := by
    rcases hb with rfl | rfl
    · have := wrapDim_front (r := (s ++ m ++ s').length) (i := s.length + m.length - 1) (by omega)
      rw [← this]; congr 1; omega
    · have := wrapDim_back (r := (s ++ m ++ s').length) (i := s.length + m.length - 1) (by omega)
      rw [← this]; congr 1; omega
  simp only [nnFlattenAtForward, h1, h2, Res.bind_ok]
  rw [if_neg (by omega), show s.length + m.length - 1 + 1 = (s ++ m).length by simp; omega]
  rw [List.take_left, List.drop_left, List.drop_left, List.append_assoc, List.take_left]

theorem nnFlattenAt_range {a b : Int} {x : Tensor ℝ} (hx : x.shape ≠ [])
    (h : a < -x.shape.length ∨ x.shape.length ≤ a ∨ b < -x.shape.length ∨ x.shape.length ≤ b) :
    nnFlattenAtForward a b x = .error .index := by
  have hl : 0 < x.shape.length := List.length_pos_iff.2 hx
  simp only [nnFlattenAtForward]
  cases e : wrapDim a x.shape.length with
  | error e' => rw [wrapDim_index e]; rfl
  | ok i =>
    have hb : b < -x.shape.length ∨ x.shape.length ≤ b := by
      by_contra hc
      have : a < -x.shape.length ∨ x.shape.length ≤ a := by tauto
      rw [wrapDim_error hl this] at e; cases e
    rw [wrapDim_error hl hb]; rfl

theorem flattenForward_rank {x y : Tensor ℝ} (h : Resh.flattenForward x = .ok y) : y.shape.length = 2 := by
  simp only [Resh.flattenForward] at h
  cases e : x.dim 0 with
  | error _ => rw [e] at h; cases h
  | ok b =>
    rw [e, Res.bind_ok] at h
    simp only [Tensor.reshapeInfer] at h
    split_ifs at h
    cases h
    rfl

end Utils
end NNJ
