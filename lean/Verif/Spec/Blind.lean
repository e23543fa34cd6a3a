import Verif.Model.SkipConnection

/-!
# Layers that cannot be evaluated

To say that a method evaluates no layer: it does the same in a network all of whose layers raise as soon as they are
evaluated.
-/

namespace NNJ

/-- "`if val is None: raise ValueError`" in front of a method.  E.g. nnj/conv2d.py:169-170, where `self.forward(x)` is
called in this case. -/
def guardVal {α γ : Type} (f : Option (Tensor α) → Prog α γ) : Option (Tensor α) → Prog α γ
  | none => Prog.throw .value
  | some v => f (some v)

/-- The layer `m` with a `forward` that raises, and with methods that raise when `val` is None (where they may call
`self.forward(x)`, e.g. nnj/conv2d.py:169-170). -/
def Mod.blind {α : Type} (m : Mod α) : Mod α where
  id := m.id
  nParams := m.nParams
  params := m.params
  forward := fun _ => Prog.throw .value
  jacobian := fun x val wrt => guardVal (fun val => m.jacobian x val wrt) val
  jvp := fun x val v wrt => guardVal (fun val => m.jvp x val v wrt) val
  jmp := fun x val A wrt => guardVal (fun val => m.jmp x val A wrt) val
  jmjTp := fun x val A wrt f t db => guardVal (fun val => m.jmjTp x val A wrt f t db) val
  vjp := fun x val v wrt => guardVal (fun val => m.vjp x val v wrt) val
  mjp := fun x val A wrt => guardVal (fun val => m.mjp x val A wrt) val
  jTmjp := fun x val A wrt f t db => guardVal (fun val => m.jTmjp x val A wrt f t db) val

/-- A number that the evaluation of the layer `m` increases by one, and that nothing else changes: neither the products of `m`
(with `val` given) nor the recording of feature maps (nnj/sequential.py:27, 32).  What a layer that counts its calls would
show. -/
structure Counts {α : Type} (cnt : Store α → Nat) (m : Mod α) : Prop where
  forward : ∀ x s y s', m.forward x s = (.ok y, s') → cnt s' = cnt s + 1
  jvp : ∀ x v u wrt s r s', m.jvp x (some v) u wrt s = (.ok r, s') → cnt s' = cnt s
  jmp : ∀ x v A wrt s r s', m.jmp x (some v) (some A) wrt s = (.ok r, s') → cnt s' = cnt s
  vjp : ∀ x v u wrt s r s', m.vjp x (some v) u wrt s = (.ok r, s') → cnt s' = cnt s
  mjp : ∀ x v A wrt s r s', m.mjp x (some v) (some A) wrt s = (.ok r, s') → cnt s' = cnt s
  fmaps : ∀ (s : Store α) f, cnt { s with fmaps := f } = cnt s

/-- `Sequential(Sequential(.. Sequential(m)))`, with these identities from the outside in (nnj/sequential.py:10-28). -/
def nest {α : Type} [Zero α] [One α] [Add α] (m : Mod α) : List Nat → Mod α
  | [] => m
  | id :: ids => Sequential.mod id true [nest m ids]

section
variable {α : Type} [Zero α] [One α] [Add α] [Mul α]

mutual
/-- `Blinded skips m m'`: `m` is any nesting of Sequential and (if `skips`) SkipConnection objects around any layers, and
`m'` is the same nesting around the same layers made blind (nnj/sequential.py:10-28, nnj/skipconnection.py:10-15). -/
inductive Blinded (skips : Bool) : Mod α → Mod α → Prop
  | leaf (m : Mod α) : Blinded skips m m.blind
  | seq (id : Nat) (b : Bool) {ms ms' : List (Mod α)} (h : BlindedL skips ms ms') :
      Blinded skips (Sequential.mod id b ms) (Sequential.mod id b ms')
  | skip (id : Nat) {F F' : Mod α} (hs : skips = true) (h : Blinded skips F F') :
      Blinded skips (SkipConnection.mod id F) (SkipConnection.mod id F')
/-- The same for the modules of a Sequential (nnj/sequential.py:10-28). -/
inductive BlindedL (skips : Bool) : List (Mod α) → List (Mod α) → Prop
  | nil : BlindedL skips [] []
  | cons {m m' : Mod α} {ms ms' : List (Mod α)} (h : Blinded skips m m') (hs : BlindedL skips ms ms') :
      BlindedL skips (m :: ms) (m' :: ms')
end
end

end NNJ
