import Verif.Spec.ShapesNet
import Verif.Proofs.ShapesUses
import Verif.Props.History
import Verif.Spec.Example

/-!
# C75: exceptions and shapes do not depend on the numbers
-/

namespace NNJ.Props
open Tensor Shp

section
variable {α β : Type}
variable [Zero α] [One α] [Add α] [Sub α] [Mul α] [Neg α] [Div α] [NatCast α] [LT α] [DecidableLT α] [Trans α]
variable [Zero β] [One β] [Add β] [Sub β] [Mul β] [Neg β] [Div β] [NatCast β] [LT β] [DecidableLT β] [Trans β]

/-- C75: the same constructor calls in any two number systems (without MaxPool2d) give objects whose methods, with any arguments of the same shapes, in any
states of the same shapes, either both return results of the same shapes or both raise the same exception. -/
theorem C75_same_shapes_and_exceptions {m : Mod α} {m' : Mod β} (h : SameCode m m') {c : Use α} {c' : Use β} (hc : SameUse c c')
    {s : Store α} {s' : Store β} (hs : SameStore s s') :
    SameRes SameVal (c.run m s).1 (c'.run m' s').1 ∧ SameStore (c.run m s).2 (c'.run m' s').2 :=
  use_same (sameCode h) hc s s' hs

/-- C75: and so for histories of uses of several objects, some of which raise. -/
theorem C75_histories {h : List (Mod α × Use α)} {h' : List (Mod β × Use β)}
    (hh : List.Forall₂ (fun a b => SameCode a.1 b.1 ∧ SameUse a.2 b.2) h h') {s : Store α} {s' : Store β} (hs : SameStore s s') :
    List.Forall₂ (SameRes SameVal) (runUses h s).1 (runUses h' s').1 ∧ SameStore (runUses h s).2 (runUses h' s').2 :=
  uses_same (hh.imp fun _ _ h => ⟨sameCode h.1, h.2⟩) hs

end

theorem snoc_codes {α β : Type}
    [Zero α] [One α] [Add α] [Sub α] [Mul α] [Neg α] [Div α] [NatCast α] [LT α] [DecidableLT α] [Trans α]
    [Zero β] [One β] [Add β] [Sub β] [Mul β] [Neg β] [Div β] [NatCast β] [LT β] [DecidableLT β] [Trans β]
    {m : Mod α} {m' : Mod β} (hm : SameCode m m') : ∀ {ms : List (Mod α)} {ms' : List (Mod β)}, SameCodes ms ms' → SameCodes (ms ++ [m]) (ms' ++ [m'])
  | _, _, .nil => .cons hm .nil
  | _, _, .cons h hs => .cons h (snoc_codes hm hs)

section
variable {β : Type} [Zero β] [One β] [Add β] [Sub β] [Mul β] [Neg β] [Div β] [NatCast β] [LT β] [DecidableLT β] [Trans β]

mutual
theorem net_code (q : ℝ → β) (fn : (ℝ → ℝ) → β → β) : {s s' : List Nat} → {n k p : Nat} → (N : Net s n s' k p) → N.NoPool → SameCode N.mod (N.modIn q fn)
  | _, _, _, _, _, .linear id wId bId i o _ _, _ => by
    simp only [Net.mod, Net.modIn]
    exact .linear id wId bId i o
  | _, _, _, _, _, .act a id _ _ _ _, _ => by
    simp only [Net.mod, Net.modIn]
    cases a with
    | relu => exact .relu id
    | sigmoid => exact .sigmoid id
    | tanh => exact .tanh id
    | sinusoidal => exact .sinusoidal id
    | softplus b t => exact .softplus b t _ _ id
    | truncExp => exact .truncExp id
    | custom f g => exact .custom f g _ _ id
  | _, _, _, _, _, .flatten id _ _ _ _, _ => by
    simp only [Net.mod, Net.modIn]
    exact .flatten id
  | _, _, _, _, _, .reshape id _ _ _ _ _ _ z _, _ => by
    simp only [Net.mod, Net.modIn]
    exact .reshape z id
  | _, _, _, _, _, .l2norm id eps _ _ _ _ _, _ => by
    simp only [Net.mod, Net.modIn]
    exact .l2norm eps _ id
  | _, _, _, _, _, .conv id wId bId g, _ => by
    simp only [Net.mod, Net.modIn]
    exact .conv _ id wId _
  | _, _, _, _, _, .upsample id _ _ _ r _ _ _ _, _ => by
    simp only [Net.mod, Net.modIn]
    exact .upsample _ id
  | _, _, _, _, _, .maxpool id g, h => (by simp only [Net.NoPool] at h)
  | _, _, _, _, _, .seq id c, h => by
    simp only [Net.mod, Net.modIn]
    simp only [Net.NoPool] at h
    exact .seq id true (chain_codes q fn c h)
  | _, _, _, _, _, .skip id fid ch, h => by
    simp only [Net.mod, Net.modIn]
    simp only [Net.NoPool] at h
    exact .skip id fid true (chain_codes q fn ch h)
theorem chain_codes (q : ℝ → β) (fn : (ℝ → ℝ) → β → β) : {s s' : List Nat} → {n k p l : Nat} → (c : Chain s n s' k p l) → c.NoPool →
    SameCodes c.mods (c.modsIn q fn)
  | _, _, _, _, _, _, .nil _ _ _ _, _ => by
    simp only [Chain.mods, Chain.modsIn]
    exact .nil
  | _, _, _, _, _, _, .snoc c m, h => by
    simp only [Chain.mods, Chain.modsIn]
    simp only [Chain.NoPool] at h
    exact snoc_codes (net_code q fn m h.2) (chain_codes q fn c h.1)
end

theorem toUse_run (m : Mod ℝ) (x : Tensor ℝ) (val : Option (Tensor ℝ)) (c : Call) : (c.toUse x val).run m = c.run m x val := by
  cases c <;> rfl

variable {s s' : List Nat} {n k p : Nat} {N : Net s n s' k p} {B : Nat} {st : Store ℝ}

/-- C75: a network without MaxPool2d, evaluated in any number system (such as floating point numbers, with any rounding, infinities and NaN), in any state
with parameters of the right shapes: every product method with `val=None` and arguments of the shapes that fit returns, and what it returns has the shape
that the theorems about real numbers say. -/
theorem C75_returns_in_any_number_system (hN : N.NoPool) (h : N.Ok st) (hB : 0 < B) (c : Call) (hc : c.Valid N B) {x : Tensor ℝ} (hx : x.shape = B :: s)
    (q : ℝ → β) (fn : (ℝ → ℝ) → β → β) {sf : Store β} (hs : SameStore st sf) {c' : Use β} (hu : SameUse (c.toUse x none) c') :
    ∃ r r', Returns (c.run N.mod x none) st r ∧ (c'.run (N.modIn q fn) sf).1 = .ok r' ∧ SameVal r r' := by
  obtain ⟨r, _, hr, _, _⟩ := C17_history h [] hB (X := fun b i => x.data (b * n + i)) ⟨hx, fun _ _ => rfl⟩ c hc h fun i _ => ⟨rfl, fun _ _ => rfl⟩
  have key := (C75_same_shapes_and_exceptions (net_code q fn N hN) hu hs).1
  rw [toUse_run, show (c.run N.mod x none st).1 = .ok r from hr] at key
  cases hr' : (c'.run (N.modIn q fn) sf).1 with
  | error e =>
    rw [hr'] at key
    exact key.elim
  | ok r' =>
    rw [hr'] at key
    exact ⟨r, r', hr, rfl, key⟩

end

section
variable {α : Type}

theorem blank_shape (t : Tensor α) : SameShape t t.blank := rfl

theorem blank_opt (t : Option (Tensor α)) : SameOpt t (t.map Tensor.blank) := by
  cases t
  · trivial
  · rfl

mutual
theorem blank_val : (v : PyVal α) → SameVal v v.blank
  | .none => by
    rw [PyVal.blank]
    exact sameVal_none
  | .tensor t => by
    rw [PyVal.blank]
    exact sameVal_tensor rfl
  | .list vs => by
    rw [PyVal.blank]
    exact sameVal_list (blank_vals vs)
theorem blank_vals : (vs : List (PyVal α)) → SameVals vs (PyVal.blanks vs)
  | [] => by
    rw [PyVal.blanks]
    exact sameVals_nil
  | v :: vs => by
    rw [PyVal.blanks]
    exact sameVals_cons (blank_val v) (blank_vals vs)
end

theorem blank_store (s : Store α) : SameStore s s.blank := by
  refine ⟨fun i => rfl, fun i => ?_, rfl⟩
  simp only [Store.blank, Option.map_map, Function.comp_def, List.map_map]
  rfl

theorem blank_use (c : Use α) : SameUse c c.blank := by
  cases c
  · exact .call rfl
  · exact .forward rfl
  · exact .jacobian _ rfl (blank_opt _)
  · exact .jvp _ rfl (blank_opt _) rfl
  · exact .jmp _ rfl (blank_opt _) (blank_opt _)
  · exact .jmjTp _ _ _ _ rfl (blank_opt _) (blank_val _)
  · exact .vjp _ rfl (blank_opt _) rfl
  · exact .mjp _ rfl (blank_opt _) (blank_opt _)
  · exact .jTmjp _ _ _ _ rfl (blank_opt _) (blank_opt _)
  · exact .getWeight
  · exact .setWeight rfl
  · exact .gaussianForward _ rfl (blank_opt _)
  · exact .gaussianGradient _ _ rfl (blank_opt _)
  · exact .gaussianGgn _ _ rfl
  · exact .binaryForward _ rfl (blank_opt _)
  · exact .binaryGradient _ _ rfl (blank_opt _)
  · exact .binaryGgn _ _ rfl
  · exact .bernoulliForward _ rfl (blank_opt _)
  · exact .bernoulliGradient _ _ rfl (blank_opt _)
  · exact .bernoulliGgn _ _ rfl

theorem blank_of_same_tensor {t : Tensor α} {u : Tensor Blank} (h : SameShape t u) : u = t.blank := by
  obtain ⟨s, d, d', rfl, rfl⟩ := SameShape.cases h
  exact congrArg (Tensor.mk s) (funext fun i => by cases d' i; rfl)

mutual
theorem blank_of_same : {v : PyVal α} → {w : PyVal Blank} → SameVal v w → w = v.blank
  | .none, w, h => by
    cases w <;> simp only [SameVal] at h
    rw [PyVal.blank]
  | .tensor t, w, h => by
    cases w <;> simp only [SameVal] at h
    rw [PyVal.blank, blank_of_same_tensor h]
  | .list vs, w, h => by
    cases w <;> simp only [SameVal] at h
    rw [PyVal.blank, blanks_of_same h]
theorem blanks_of_same : {vs : List (PyVal α)} → {ws : List (PyVal Blank)} → SameVals vs ws → ws = PyVal.blanks vs
  | [], ws, h => by
    cases ws <;> simp only [SameVals] at h
    rw [PyVal.blanks]
  | v :: vs, ws, h => by
    cases ws <;> simp only [SameVals] at h
    rw [PyVal.blanks, blank_of_same h.1, blanks_of_same h.2]
end

variable [Zero α] [One α] [Add α] [Sub α] [Mul α] [Neg α] [Div α] [NatCast α] [LT α] [DecidableLT α] [Trans α]

/-- C75: the exception, or the shape of the result, is computed by running the same program on tensors without entries. -/
theorem C75_run_on_shapes {m : Mod α} {m' : Mod Blank} (h : SameCode m m') (c : Use α) (s : Store α) :
    (c.blank.run m' s.blank).1 = (c.run m s).1.map PyVal.blank := by
  have := (C75_same_shapes_and_exceptions h (blank_use c) (blank_store s)).1
  cases h1 : (c.run m s).1 <;> cases h2 : (c.blank.run m' s.blank).1 <;> rw [h1, h2] at this
  · rw [show _ = _ from this]
    rfl
  · exact this.elim
  · exact this.elim
  · rw [blank_of_same this]
    rfl

end

theorem vjpBody_inside {f : Nat → Nat} (hf : f 0 = 0) (x v u : Nat → ℝ) :
    ∃ r, MaxPool2d.vjpBody ⟨[1, 1, 1, 1], x⟩ ⟨[1, 1, 1, 1], v⟩ ⟨[1, 1], u⟩ ⟨[1, 1, 1, 1], f⟩ = .ok r := by
  simp [MaxPool2d.vjpBody, Tensor.dims4, assertR, Tensor.reshape, Tensor.indexPut, Tensor.indexOk, hf, Tensor.repeatInterleave, arange, Tensor.numel, size, zeros, full, bind, Except.bind, pure, Except.pure]

theorem vjpBody_outside {f : Nat → Nat} (hf : f 0 = 1) (x v u : Nat → ℝ) :
    MaxPool2d.vjpBody ⟨[1, 1, 1, 1], x⟩ ⟨[1, 1, 1, 1], v⟩ ⟨[1, 1], u⟩ ⟨[1, 1, 1, 1], f⟩ = .error .index := by
  simp [MaxPool2d.vjpBody, Tensor.dims4, assertR, Tensor.reshape, Tensor.indexPut, Tensor.indexOk, hf, Tensor.repeatInterleave, arange, Tensor.numel, size, zeros, full, bind, Except.bind, pure, Except.pure]

/-- a history: the forward pass of `x`, then `vjp` at another, smaller image with its `val` given -/
noncomputable def staleVjp (x : Tensor ℝ) : List (Mod ℝ × Use ℝ) :=
  [(MaxPool2d.mod { kernel := (1, 2), stride := (1, 2) } 0, .forward x),
    (MaxPool2d.mod { kernel := (1, 2), stride := (1, 2) } 0, .vjp ⟨[1, 1, 1, 1], fun _ => 0⟩ (some ⟨[1, 1, 1, 1], fun _ => 0⟩) ⟨[1, 1], fun _ => 1⟩ .input)]

/-- C75: MaxPool2d is rightly left out: which exception a history of its methods raises depends on the numbers, not only on the shapes.  (The indices of
the last forward pass are used at another image, where they exist or not.) -/
theorem C75_maxpool_depends_on_the_numbers (s : Store ℝ) :
    ∃ x x' : Tensor ℝ, SameShape x x' ∧ (∃ r, (runUses (staleVjp x) s).1[1]? = some (.ok r)) ∧ (runUses (staleVjp x') s).1[1]? = some (.error .index) := by
  have hp : ∀ d : Nat → ℝ, ∃ v f, Torch.maxPool2d ⟨[1, 1, 1, 2], d⟩ { kernel := (1, 2), stride := (1, 2) } = .ok (v, ⟨[1, 1, 1, 1], f⟩) ∧
      f 0 = if d 0 < d 1 then 1 else 0 := fun d => ⟨_, _, rfl, rfl⟩
  have key : ∀ (d : Nat → ℝ) v f, Torch.maxPool2d ⟨[1, 1, 1, 2], d⟩ { kernel := (1, 2), stride := (1, 2) } = .ok (v, ⟨[1, 1, 1, 1], f⟩) →
      (runUses (staleVjp ⟨[1, 1, 1, 2], d⟩) s).1[1]? = some
        ((MaxPool2d.vjpBody (⟨[1, 1, 1, 1], fun _ => 0⟩ : Tensor ℝ) ⟨[1, 1, 1, 1], fun _ => 0⟩ ⟨[1, 1], fun _ => 1⟩ ⟨[1, 1, 1, 1], f⟩).map .tensor) := by
    intro d v f h
    have e1 : (Use.forward ⟨[1, 1, 1, 2], d⟩).run (MaxPool2d.mod { kernel := (1, 2), stride := (1, 2) } 0) s =
        (.ok (.tensor v), { s with pidx := fun j => if j = 0 then some ⟨[1, 1, 1, 1], f⟩ else s.pidx j }) := by
      simp only [Use.run, MaxPool2d.mod, MaxPool2d.forward, h]
      rfl
    simp only [staleVjp, runUses]
    rw [e1]
    show some (Prog.bind (Prog.bind (liftM (MaxPool2d.vjpBody _ _ _ _)) _) _ _).1 = _
    cases MaxPool2d.vjpBody (⟨[1, 1, 1, 1], fun _ => 0⟩ : Tensor ℝ) ⟨[1, 1, 1, 1], fun _ => 0⟩ ⟨[1, 1], fun _ => 1⟩ ⟨[1, 1, 1, 1], f⟩ <;> rfl
  refine ⟨⟨[1, 1, 1, 2], fun _ => 0⟩, ⟨[1, 1, 1, 2], fun i => i⟩, rfl, ?_, ?_⟩
  · obtain ⟨v, f, h, hf⟩ := hp fun _ => 0
    obtain ⟨r, hr⟩ := vjpBody_inside (f := f) (by simpa using hf) (fun _ => 0) (fun _ => 0) (fun _ => 1)
    exact ⟨.tensor r, by rw [key _ v f h, hr]; rfl⟩
  · obtain ⟨v, f, h, hf⟩ := hp fun i => i
    rw [key _ v f h, vjpBody_outside (f := f) (by simpa using hf)]
    rfl

/-- The example network (Linear, Tanh, a skip connection) meets the hypotheses; here `vjp` on three samples in any number system. -/
example {β : Type} [Zero β] [One β] [Add β] [Sub β] [Mul β] [Neg β] [Div β] [NatCast β] [LT β] [DecidableLT β] [Trans β] (q : ℝ → β) (fn : (ℝ → ℝ) → β → β)
    (sf : Store β) (hs : SameStore exStore sf) (x v : Tensor β) (hx : x.shape = [3, 2]) (hv : v.shape = [3, 1]) :
    ∃ r', ((Use.vjp x none v .weight).run (exNet.modIn q fn) sf).1 = .ok r' := by
  have hN : exNet.NoPool := by simp [exNet, Net.NoPool, Chain.NoPool]
  obtain ⟨_, r', _, h, _⟩ := C75_returns_in_any_number_system (B := 3) hN exNet_ok (by norm_num) (.vjp ⟨[3, 1], fun _ => 0⟩ .weight) (by simp [Call.Valid])
    (x := ⟨[3, 2], fun _ => 0⟩) rfl q fn hs (c' := .vjp x none v .weight) (.vjp _ hx.symm trivial hv.symm)
  exact ⟨r', h⟩

/-- a network with a skip connection, in any number system -/
def shpNet (α : Type) [Zero α] [One α] [Add α] [Sub α] [Mul α] [Neg α] [Div α] [NatCast α] [LT α] [DecidableLT α] [Trans α] : Mod α :=
  Sequential.mod 0 true [Linear.mod 1 0 (some 1) 2 3, SkipConnection.mod 2 (Sequential.mod 3 true [Activation.toMod Activation.tanh 4, Linear.mod 5 2 none 3 2])]

/-- its parameters and hooks, without the entries -/
def shpStore : Store Blank where
  param i := ⟨if i = 0 then [3, 2] else if i = 1 then [3] else [2, 3], fun _ => .it⟩
  fmaps i := if i = 0 ∨ i = 3 then some [] else none
  pidx _ := none
  hooks i := if i = 1 ∨ i = 2 then [0] else if i = 4 ∨ i = 5 then [3] else []

/-- it is built by the same constructor calls in any two number systems -/
theorem shpNet_code (α β : Type) [Zero α] [One α] [Add α] [Sub α] [Mul α] [Neg α] [Div α] [NatCast α] [LT α] [DecidableLT α] [Trans α]
    [Zero β] [One β] [Add β] [Sub β] [Mul β] [Neg β] [Div β] [NatCast β] [LT β] [DecidableLT β] [Trans β] : SameCode (shpNet α) (shpNet β) :=
  .seq 0 true (.cons (.linear 1 0 (some 1) 2 3) (.cons (.skip 2 3 true (.cons (.tanh 4) (.cons (.linear 5 2 none 3 2) .nil))) .nil))

/-- what a method returns or raises on shapes -/
def shpShape (c : Use Blank) : Res (Option (List Nat)) :=
  match (c.run (shpNet Blank) shpStore).1 with
  | .ok (.tensor t) => .ok (some t.shape)
  | .ok _ => .ok none
  | .error e => .error e

/-- Running on shapes: five samples give 5 × 5 outputs; the product wrt the weights with 5 vectors is 5 × 15; `vjp` with vectors of the wrong length raises
a shape error, and so by the theorem does every floating point run. -/
example : shpShape (.forward ⟨[5, 2], fun _ => .it⟩) = .ok (some [5, 5]) ∧
    shpShape (.vjp ⟨[5, 2], fun _ => .it⟩ none ⟨[5, 5], fun _ => .it⟩ .weight) = .ok (some [5, 15]) ∧
    shpShape (.vjp ⟨[5, 2], fun _ => .it⟩ none ⟨[5, 6], fun _ => .it⟩ .input) = .error .shape := by
  refine ⟨?_, ?_, ?_⟩ <;> rfl

/-- The real run of the third call raises as well, whatever the numbers are. -/
example (s : Store ℝ) (hs : s.blank = shpStore) (x v : Tensor ℝ) (hx : x.shape = [5, 2]) (hv : v.shape = [5, 6]) :
    ((shpNet ℝ).vjp x none v .input s).1 = .error .shape := by
  have h := C75_run_on_shapes (shpNet_code ℝ Blank) (.vjp x none v .input) s
  rw [hs] at h
  have hr : (((Use.vjp x none v .input).blank).run (shpNet Blank) shpStore).1 = .error .shape := by
    simp only [Use.blank, Tensor.blank, hx, hv]
    rfl
  rw [hr] at h
  cases h1 : ((shpNet ℝ).vjp x none v .input s).1 with
  | ok r =>
    have : ((Use.vjp x none v .input).run (shpNet ℝ) s).1 = .ok (.ofOption r) := by
      show (Prog.bind _ _ s).1 = _
      unfold Prog.bind
      rcases hp : (shpNet ℝ).vjp x none v .input s with ⟨a, b⟩
      rw [hp] at h1
      cases h1
      rfl
    rw [this] at h
    cases h
  | error e =>
    have : ((Use.vjp x none v .input).run (shpNet ℝ) s).1 = .error e := by
      show (Prog.bind _ _ s).1 = _
      unfold Prog.bind
      rcases hp : (shpNet ℝ).vjp x none v .input s with ⟨a, b⟩
      rw [hp] at h1
      cases h1
      rfl
    rw [this] at h
    cases h
    rfl

end NNJ.Props
