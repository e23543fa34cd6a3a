import Verif.Spec.Calls

/-!
# `copy.deepcopy(model)`

Deep-copying a module copies every module object, parameter, cached tensor and dict of hooks below it, with one new object for each
old one.  Functions are not copied: the hooks of the copied layers are the same lambdas as before, and those hold a reference to the
Sequential that registered them (nnj/sequential.py:25-28: `lambda m, i, o: self.feature_maps.append(...)`).
-/

namespace NNJ

mutual
/-- The copied network object: new identities `φ i` for the module objects, `ψ i` for the parameters. -/
def Net.rename (φ ψ : Nat → Nat) : {s s' : List Nat} → {n k p : Nat} → Net s n s' k p → Net s n s' k p
  | _, _, _, _, _, .linear id wId none i o hi ho => .linear (φ id) (ψ wId) none i o hi ho
  | _, _, _, _, _, .linear id wId (some b) i o hi ho => .linear (φ id) (ψ wId) (some (ψ b)) i o hi ho
  | _, _, _, _, _, .act a id s n hs hn => .act a (φ id) s n hs hn
  | _, _, _, _, _, .flatten id s n hs hn => .flatten (φ id) s n hs hn
  | _, _, _, _, _, .reshape id s dims n hs hd hn z hz => .reshape (φ id) s dims n hs hd hn z hz
  | _, _, _, _, _, .l2norm id eps s n hs hr hn => .l2norm (φ id) eps s n hs hr hn
  | _, _, _, _, _, .conv id wId none g => .conv (φ id) (ψ wId) none g
  | _, _, _, _, _, .conv id wId (some b) g => .conv (φ id) (ψ wId) (some (ψ b)) g
  | _, _, _, _, _, .upsample id c h w r hc hh hw hr => .upsample (φ id) c h w r hc hh hw hr
  | _, _, _, _, _, .maxpool id g => .maxpool (φ id) g
  | _, _, _, _, _, .seq id c => .seq (φ id) (c.rename φ ψ)
  | _, _, _, _, _, .skip id fid ch => .skip (φ id) (φ fid) (ch.rename φ ψ)
def Chain.rename (φ ψ : Nat → Nat) : {s s' : List Nat} → {n k p l : Nat} → Chain s n s' k p l → Chain s n s' k p l
  | _, _, _, _, _, _, .nil s n hs hn => .nil s n hs hn
  | _, _, _, _, _, _, .snoc c m => .snoc (c.rename φ ψ) (m.rename φ ψ)
end

/-- `st'` is the state after `copy.deepcopy(N)` in state `st`: the copied objects are new, they hold copies of what the original ones
hold, and have the same hooks, which belong to the original Sequentials; nothing else changes. -/
structure DeepCopied (φ ψ : Nat → Nat) {s s' : List Nat} {n k p : Nat} (N : Net s n s' k p) (st st' : Store ℝ) : Prop where
  inj : ∀ i ∈ N.ids, ∀ j ∈ N.ids, φ i = φ j → i = j
  new : ∀ i ∈ N.ids, φ i ∉ N.ids
  newParam : ∀ i ∈ N.mod.params, ψ i ∉ N.mod.params
  param : ∀ i ∈ N.mod.params, st'.param (ψ i) = st.param i
  fmaps : ∀ i ∈ N.ids, st'.fmaps (φ i) = st.fmaps i
  pidx : ∀ i ∈ N.ids, st'.pidx (φ i) = st.pidx i
  hooks : ∀ i ∈ N.ids, st'.hooks (φ i) = st.hooks i
  rest : ∀ j, (∀ i ∈ N.ids, j ≠ φ i) → st'.fmaps j = st.fmaps j ∧ st'.pidx j = st.pidx j ∧ st'.hooks j = st.hooks j
  restParam : ∀ j, (∀ i ∈ N.mod.params, j ≠ ψ i) → st'.param j = st.param j

/-- the products that run through the layers from first to last, with their matrix given -/
def Call.Forwards : Call → Prop
  | forward | jvp _ _ | jmp (some _) _ => True
  | _ => False

/-- the products that run through the layers from last to first -/
def Call.Backwards : Call → Prop
  | jacobian _ | vjp _ _ | mjp _ _ | jTmjp _ _ _ _ _ => True
  | _ => False

end NNJ
