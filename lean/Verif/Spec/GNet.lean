import Verif.Spec.ConvGen

/-!
# Networks with other layers

`ILayer`: any module object together with the map it should compute on one sample and the matrix of its products with
respect to the input.  `ILayer.Exact`: what its methods have to do for that, said about the layer alone.  `GNet`:
networks built from `Net`s and such layers with `Sequential` and `SkipConnection`.
-/

namespace NNJ
open Matrix

/-- A layer that is not one of the classes in `Net`: a class written by a user, or a configuration of a class of the
library that `Net` leaves out. -/
structure ILayer (s : List Nat) (n : Nat) (s' : List Nat) (k p : Nat) where
  /-- the module object -/
  mod : Mod ℝ
  /-- the parameters have their shapes -/
  params : Store ℝ → Prop
  /-- the parameters as a vector -/
  w : Store ℝ → Fin p → ℝ
  /-- the map on one sample, and its derivative where it is differentiable -/
  f : (Fin p → ℝ) → (Fin n → ℝ) → Fin k → ℝ
  J : (Fin p → ℝ) → (Fin n → ℝ) → Matrix (Fin k) (Fin n) ℝ
  smooth : (Fin p → ℝ) → (Fin n → ℝ) → Prop
  /-- derivative in the weights (not used where only products with respect to the input are considered) -/
  JW : (Fin p → ℝ) → (Fin n → ℝ) → Matrix (Fin k) (Fin p) ℝ := fun _ _ => 0

/-- The layer does its part: `forward`, `jacobian`, `vjp`, `mjp` and `jTmjp` with respect to the input are right, with
or without `val`, and change nothing in the state. -/
structure ILayer.Exact {s s' : List Nat} {n k p : Nat} (L : ILayer s n s' k p) : Prop where
  hn : size s = n
  hk : size s' = k
  npos : 0 < n
  kpos : 0 < k
  params_of : ∀ {st st' : Store ℝ}, (∀ i, (st'.param i).shape = (st.param i).shape) → L.params st → L.params st'
  w_of : ∀ {st st' : Store ℝ}, st'.param = st.param → L.w st' = L.w st
  deriv : ∀ w x, L.smooth w x → HasFDerivAt (L.f w) (linMap (L.J w x)) x
  forward : ∀ {st : Store ℝ} {B : Nat} {X x}, L.params st → 0 < B → IsBatch x B s n X →
    ∃ t, L.mod.forward x st = (.ok t, st) ∧ IsBatch t B s' k fun b => L.f (L.w st) (X b)
  jacobian : ∀ {st : Store ℝ} {B : Nat} {X x}, L.params st → 0 < B → IsBatch x B s n X →
    ∃ t, L.mod.jacobian x none .input st = (.ok (some t), st) ∧ IsMat t B k n fun b => L.J (L.w st) (X b)
  vjp : ∀ {st : Store ℝ} {B : Nat} {X x val u U}, L.params st → 0 < B → IsBatch x B s n X →
    (∀ v ∈ val, IsBatch v B s' k fun b => L.f (L.w st) (X b)) → IsVec u B k U →
    ∃ t, L.mod.vjp x val u .input st = (.ok (some t), st) ∧ IsVec t B n fun b => U b ᵥ* L.J (L.w st) (X b)
  mjp : ∀ {st : Store ℝ} {B : Nat} {X x val r A Z}, L.params st → 0 < B → IsBatch x B s n X →
    (∀ v ∈ val, IsBatch v B s' k fun b => L.f (L.w st) (X b)) → 0 < r → IsMat A B r k Z →
    ∃ t, L.mod.mjp x val (some A) .input st = (.ok (some t), st) ∧ IsMat t B r n fun b => Z b * L.J (L.w st) (X b)
  jTmjp : ∀ {st : Store ℝ} {B : Nat} {X x val A Z} (fromDiag toDiag : Bool), L.params st → 0 < B → IsBatch x B s n X →
    (∀ v ∈ val, IsBatch v B s' k fun b => L.f (L.w st) (X b)) → MetricArg fromDiag A B k Z →
    ∃ t, L.mod.jTmjp x val (some A) .input fromDiag toDiag false st = (.ok (.tensor t), st) ∧
      MetricOut toDiag t B n fun b => (L.J (L.w st) (X b))ᵀ * Z b * L.J (L.w st) (X b)
  jTmjp_backprop : ∀ {st : Store ℝ} {B : Nat} {X x val A d}, L.params st → 0 < B → IsBatch x B s n X →
    (∀ v ∈ val, IsBatch v B s' k fun b => L.f (L.w st) (X b)) → IsVec A B k d →
    ∃ t, L.mod.jTmjp x val (some A) .input true true true st = (.ok (.tensor t), st) ∧
      IsVec t B n fun b => diag ((L.J (L.w st) (X b))ᵀ * diagonal (d b) * L.J (L.w st) (X b))

mutual
/-- A module object built from networks and other layers. -/
inductive GNet : List Nat → Nat → List Nat → Nat → Nat → Type
  /-- a network of the classes in `Net` -/
  | net {s s' : List Nat} {n k p : Nat} (N : Net s n s' k p) : GNet s n s' k p
  /-- another layer -/
  | layer {s s' : List Nat} {n k p : Nat} (L : ILayer s n s' k p) : GNet s n s' k p
  /-- `nnj.Sequential(...)` -/
  | seq {s s' : List Nat} {n k p l : Nat} (id : Nat) (c : GChain s n s' k p (l + 1)) : GNet s n s' k p
  /-- `nnj.SkipConnection(...)` -/
  | skip {a c : Nat} {r : List Nat} {n k p l : Nat} (id fid : Nat) (ch : GChain (a :: r) n (c :: r) k p (l + 1)) :
      GNet (a :: r) n ((a + c) :: r) (n + k) p

/-- A list of `l` module objects, each fed with the output of the previous one. -/
inductive GChain : List Nat → Nat → List Nat → Nat → Nat → Nat → Type
  | nil (s : List Nat) (n : Nat) (hs : size s = n) (hn : 0 < n) : GChain s n s n 0 0
  | snoc {s s' s'' : List Nat} {n k j p q l : Nat} (c : GChain s n s' k p l) (m : GNet s' k s'' j q) :
      GChain s n s'' j (p + q) (l + 1)
end

mutual
/-- the module object -/
noncomputable def GNet.mod : {s s' : List Nat} → {n k p : Nat} → GNet s n s' k p → Mod ℝ
  | _, _, _, _, _, .net N => N.mod
  | _, _, _, _, _, .layer L => L.mod
  | _, _, _, _, _, .seq id c => Sequential.mod id true c.mods
  | _, _, _, _, _, .skip id fid ch => SkipConnection.mod id (Sequential.mod fid true ch.mods)
/-- the module objects of a chain -/
noncomputable def GChain.mods : {s s' : List Nat} → {n k p l : Nat} → GChain s n s' k p l → List (Mod ℝ)
  | _, _, _, _, _, _, .nil _ _ _ _ => []
  | _, _, _, _, _, _, .snoc c m => c.mods ++ [m.mod]
end

mutual
/-- identities of all module objects inside -/
def GNet.ids : {s s' : List Nat} → {n k p : Nat} → GNet s n s' k p → List Nat
  | _, _, _, _, _, .net N => N.ids
  | _, _, _, _, _, .layer L => [L.mod.id]
  | _, _, _, _, _, .seq id c => id :: c.ids
  | _, _, _, _, _, .skip id fid ch => id :: fid :: ch.ids
def GChain.ids : {s s' : List Nat} → {n k p l : Nat} → GChain s n s' k p l → List Nat
  | _, _, _, _, _, _, .nil _ _ _ _ => []
  | _, _, _, _, _, _, .snoc c m => c.ids ++ m.ids
end

mutual
/-- all other layers inside are exact -/
def GNet.LayersExact : {s s' : List Nat} → {n k p : Nat} → GNet s n s' k p → Prop
  | _, _, _, _, _, .net _ => True
  | _, _, _, _, _, .layer L => L.Exact
  | _, _, _, _, _, .seq _ c => c.LayersExact
  | _, _, _, _, _, .skip _ _ ch => ch.LayersExact
def GChain.LayersExact : {s s' : List Nat} → {n k p l : Nat} → GChain s n s' k p l → Prop
  | _, _, _, _, _, _, .nil _ _ _ _ => True
  | _, _, _, _, _, _, .snoc c m => c.LayersExact ∧ m.LayersExact
end

mutual
/-- The state holds a properly constructed network (see `Net.Wired`). -/
def GNet.Wired : {s s' : List Nat} → {n k p : Nat} → GNet s n s' k p → Store ℝ → Prop
  | _, _, _, _, _, .net N, st => N.Wired st
  | _, _, _, _, _, .layer L, st => L.params st
  | _, _, _, _, _, .seq id c, st => (st.fmaps id).isSome ∧ c.Wired id st
  | _, _, _, _, _, .skip _ fid ch, st => (st.fmaps fid).isSome ∧ st.hooks fid = [] ∧ ch.Wired fid st
def GChain.Wired : {s s' : List Nat} → {n k p l : Nat} → GChain s n s' k p l → Nat → Store ℝ → Prop
  | _, _, _, _, _, _, .nil _ _ _ _, _, _ => True
  | _, _, _, _, _, _, .snoc c m, q, st => c.Wired q st ∧ m.Wired st ∧ st.hooks m.mod.id = [q]
end

/-- The network object is properly constructed in the state, no module object occurs twice inside it, and its other
layers are exact. -/
structure GNet.Ok {s s' : List Nat} {n k p : Nat} (N : GNet s n s' k p) (st : Store ℝ) : Prop where
  nodup : N.ids.Nodup
  wired : N.Wired st
  exact : N.LayersExact

/-- the semantics of a layer on one sample -/
noncomputable def ILayer.sem {s s' : List Nat} {n k p : Nat} (L : ILayer s n s' k p) : Sem n k p :=
  Sem.leaf L.f L.J L.JW L.smooth

mutual
/-- the semantics on one sample -/
noncomputable def GNet.sem : {s s' : List Nat} → {n k p : Nat} → GNet s n s' k p → Sem n k p
  | _, _, _, _, _, .net N => N.sem
  | _, _, _, _, _, .layer L => L.sem
  | _, _, _, _, _, .seq _ c => c.sem
  | _, _, _, _, _, .skip _ _ ch => ch.sem.skip
noncomputable def GChain.sem : {s s' : List Nat} → {n k p l : Nat} → GChain s n s' k p l → Sem n k p
  | _, _, _, _, _, _, .nil _ n _ _ => Sem.id n
  | _, _, _, _, _, _, .snoc c m => c.sem.comp m.sem
end

mutual
/-- the parameter values in the state, as one vector -/
noncomputable def GNet.w : {s s' : List Nat} → {n k p : Nat} → GNet s n s' k p → Store ℝ → Fin p → ℝ
  | _, _, _, _, _, .net N, st => N.w st
  | _, _, _, _, _, .layer L, st => L.w st
  | _, _, _, _, _, .seq _ c, st => c.w st
  | _, _, _, _, _, .skip _ _ ch, st => ch.w st
noncomputable def GChain.w : {s s' : List Nat} → {n k p l : Nat} → GChain s n s' k p l → Store ℝ → Fin p → ℝ
  | _, _, _, _, _, _, .nil _ _ _ _, _ => fun _ => 0
  | _, _, _, _, _, _, .snoc c m, st => Fin.append (c.w st) (m.w st)
end

/-! ### Conv2d with any padding, dilation and number of groups -/

namespace GConv

/-- number of parameters -/
abbrev np (g : GConv) (bId : Option Nat) : Nat := g.c2 * g.cg * g.kh * g.kw + biasLen bId g.c2

/-- the parameters as a vector: weight row-major, then bias -/
noncomputable def w (g : GConv) (wId : Nat) (bId : Option Nat) (st : Store ℝ) : Fin (g.np bId) → ℝ :=
  Fin.append (fun c => (st.param wId).data c) fun c =>
    match bId with
    | some b => (st.param b).data c
    | none => 0

/-- entry `m` of the weight tensor -/
noncomputable def wAt (g : GConv) (bId : Option Nat) (w : Fin (g.np bId) → ℝ) (m : Nat) : ℝ :=
  if h : m < g.c2 * g.cg * g.kh * g.kw then w (Fin.castAdd _ ⟨m, h⟩) else 0

/-- entry `o` of the bias -/
noncomputable def bAt (g : GConv) (bId : Option Nat) (w : Fin (g.np bId) → ℝ) (o : Nat) : ℝ :=
  if h : o < biasLen bId g.c2 then w (Fin.natAdd _ ⟨o, h⟩) else 0

/-- `∂ y[o, r, s] / ∂ x[c, u, v]`: the sum of the kernel entries `(i, j)` that read pixel `(u, v)` for pixel `(r, s)` -/
noncomputable def J (g : GConv) (W : Nat → ℝ) : Matrix (Fin (g.c2 * g.h2 * g.w2)) (Fin (g.c1 * g.h1 * g.w1)) ℝ := fun k m =>
  ∑ i : Fin g.kh, ∑ j : Fin g.kw,
    if (row k : Nat) + i * g.dh = (row m : Nat) + g.ph ∧ (col k : Nat) + j * g.dw = (col m : Nat) + g.pw then
      g.ker W (chan k : Fin g.c2) (chan m : Fin g.c1) i j else 0

/-- the output without bias -/
noncomputable def F (g : GConv) (W : Nat → ℝ) (x : Fin (g.c1 * g.h1 * g.w1) → ℝ) (k : Fin (g.c2 * g.h2 * g.w2)) : ℝ :=
  ∑ c : Fin g.c1, ∑ i : Fin g.kh, ∑ j : Fin g.kw,
    padAt (fun (u : Fin g.h1) (v : Fin g.w1) => x (pix c u v)) (((row k : Nat) + i * g.dh : Nat) - (g.ph : Int))
      (((col k : Nat) + j * g.dw : Nat) - (g.pw : Int)) * g.ker W (chan k : Fin g.c2) c i j

/-- the layer -/
noncomputable def layer (g : GConv) (id wId : Nat) (bId : Option Nat) :
    ILayer [g.c1, g.h1, g.w1] (g.c1 * g.h1 * g.w1) [g.c2, g.h2, g.w2] (g.c2 * g.h2 * g.w2) (g.np bId) where
  mod := g.mod id wId bId
  params := g.Params wId bId
  w := g.w wId bId
  f w x k := g.F (g.wAt bId w) x k + g.bAt bId w (chan k : Fin g.c2)
  J w _ := g.J (g.wAt bId w)
  smooth _ _ := True

end GConv
end NNJ
