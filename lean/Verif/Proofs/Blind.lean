import Verif.Spec.Blind
import Verif.Proofs.SameBut

/-!
# Containers of layers that cannot be evaluated: helper lemmas
-/

namespace NNJ
open Tensor

/-- the same backward methods when `val` is given -/
structure BlindBack {α : Type} (m m' : Mod α) : Prop where
  nParams : m.nParams = m'.nParams
  jacobian : ∀ x v wrt, m.jacobian x (some v) wrt = m'.jacobian x (some v) wrt
  vjp : ∀ x v u wrt, m.vjp x (some v) u wrt = m'.vjp x (some v) u wrt
  mjp : ∀ x v A wrt, m.mjp x (some v) A wrt = m'.mjp x (some v) A wrt
  jTmjp : ∀ x v A wrt f t db, m.jTmjp x (some v) A wrt f t db = m'.jTmjp x (some v) A wrt f t db

/-- the same `jmjTp` when `val` is given -/
structure BlindPush {α : Type} (m m' : Mod α) : Prop where
  nParams : m.nParams = m'.nParams
  jmjTp : ∀ x v A wrt f t db, m.jmjTp x (some v) A wrt f t db = m'.jmjTp x (some v) A wrt f t db

/-- the program never returns -/
def BlindNoRet {α β : Type} (p : Prog α β) : Prop := ∀ s r, (p s).1 ≠ .ok r

theorem BlindNoRet.bindL {α β γ : Type} {p : Prog α β} {f : β → Prog α γ} (h : BlindNoRet p) : BlindNoRet (p >>= f) := by
  intro s r hr
  rw [Prog.bind_run] at hr
  rcases hs : p s with ⟨q, s'⟩
  rw [hs] at hr
  cases q with
  | error e => cases hr
  | ok b => exact h s b (by rw [hs])

theorem BlindNoRet.bindR {α β γ : Type} {p : Prog α β} {f : β → Prog α γ} (h : ∀ b, BlindNoRet (f b)) : BlindNoRet (p >>= f) := by
  intro s r hr
  rw [Prog.bind_run] at hr
  rcases hs : p s with ⟨q, s'⟩
  rw [hs] at hr
  cases q with
  | error e => cases hr
  | ok b => exact h b s' r hr

section
variable {α : Type}

theorem sameBack_blind (m : Mod α) : BlindBack m m.blind :=
  ⟨rfl, fun _ _ _ => rfl, fun _ _ _ _ => rfl, fun _ _ _ _ => rfl, fun _ _ _ _ _ _ _ => rfl⟩

theorem samePush_blind (m : Mod α) : BlindPush m m.blind := ⟨rfl, fun _ _ _ _ _ _ _ => rfl⟩

end

namespace Sequential
variable {α : Type} {ms ms' : List (Mod α)}

theorem child_rel {R : Mod α → Mod α → Prop} (h : List.Forall₂ R ms ms') {β : Type} {g g' : Mod α → Prog α β} (k : Nat)
    (hg : ∀ m m', R m m' → g m = g' m') : (child ms k >>= g) = (child ms' k >>= g') := by
  induction h generalizing k with
  | nil => rfl
  | cons hm _ ih =>
    cases k with
    | zero => exact funext fun s => congrFun (hg _ _ hm) s
    | succ k => exact ih k

theorem nParams_rel {R : Mod α → Mod α → Prop} (h : List.Forall₂ R ms ms') (hR : ∀ m m', R m m' → m.nParams = m'.nParams) :
    nParams ms = nParams ms' := by
  induction h with
  | nil => rfl
  | cons hm _ ih => simp only [nParams, List.map_cons, List.sum_cons, hR _ _ hm] at ih ⊢; rw [ih]

section Back
variable (h : List.Forall₂ BlindBack ms ms')
include h

theorem vjpInput_back (id : Nat) : ∀ k v, vjpInput id ms k v = vjpInput id ms' k v := by
  intro k
  induction k with
  | zero => intro v; rfl
  | succ k ih => intro v; exact child_rel h k fun m m' hm => by simp only [hm.vjp, ih]

theorem vjpWeight_back (id : Nat) : ∀ k v acc, vjpWeight id ms k v acc = vjpWeight id ms' k v acc := by
  intro k
  induction k with
  | zero => intro v acc; rfl
  | succ k ih => intro v acc; exact child_rel h k fun m m' hm => by simp only [hm.vjp, ih]

theorem mjpInput_back (id : Nat) : ∀ k v, mjpInput id ms k v = mjpInput id ms' k v := by
  intro k
  induction k with
  | zero => intro v; rfl
  | succ k ih => intro v; exact child_rel h k fun m m' hm => by simp only [hm.mjp, ih]

theorem mjpWeight_back (id : Nat) : ∀ k v acc, mjpWeight id ms k v acc = mjpWeight id ms' k v acc := by
  intro k
  induction k with
  | zero => intro v acc; rfl
  | succ k ih => intro v acc; exact child_rel h k fun m m' hm => by simp only [hm.mjp, ih]

theorem jTmjpInput_back (id n : Nat) (f t db : Bool) : ∀ k A, jTmjpInput id n ms f t db k A = jTmjpInput id n ms' f t db k A := by
  intro k
  induction k with
  | zero => intro A; rfl
  | succ k ih => intro A; exact child_rel h k fun m m' hm => by simp only [hm.jTmjp, ih]

theorem jTmjpWeight_back (id n : Nat) (f t db : Bool) :
    ∀ k A acc, jTmjpWeight id n ms f t db k A acc = jTmjpWeight id n ms' f t db k A acc := by
  intro k
  induction k with
  | zero => intro A acc; rfl
  | succ k ih => intro A acc; exact child_rel h k fun m m' hm => by simp only [hm.jTmjp, ih]

theorem blindBack [Zero α] [One α] [Add α] (id : Nat) (b : Bool) : BlindBack (mod id b ms) (mod id b ms') := by
  have hl := h.length_eq
  have hm : ∀ x v A wrt, mjp id b ms x (some v) A wrt = mjp id b ms' x (some v) A wrt := by
    intro x v A wrt
    cases wrt <;> simp only [mjp, getVal, mjpInput_back h, mjpWeight_back h, hl]
  refine ⟨nParams_rel h fun _ _ hm => hm.nParams, fun x v wrt => hm x v none wrt, ?_, hm, ?_⟩ <;> simp only [mod]
  · intro x v u wrt
    cases wrt <;> simp only [vjp, getVal, vjpInput_back h, vjpWeight_back h, hl]
  · intro x v A wrt f t db
    cases wrt <;> simp only [jTmjp, getVal, jTmjpInput_back h, jTmjpWeight_back h, hl]

end Back

section Push
variable (h : List.Forall₂ BlindPush ms ms')
include h

theorem jmjTpInput_push (id n : Nat) (fd td db : Bool) : ∀ k v, jmjTpInput id n fd td db ms k v = jmjTpInput id n fd td db ms' k v := by
  induction h with
  | nil => intro k v; rfl
  | cons hm _ ih => intro k v; simp only [jmjTpInput, hm.jmjTp, ih]

theorem splitBlocks_push (matrix : Tensor α) (fd : Bool) : ∀ p, splitBlocks matrix fd ms p = splitBlocks matrix fd ms' p := by
  induction h with
  | nil => intro p; rfl
  | cons hm _ ih => intro p; simp only [splitBlocks, hm.nParams, ih]

theorem jmjTpWeight_push [Add α] (id n : Nat) (fd td db : Bool) (blocks : List (PyVal α)) :
    ∀ k kp acc, jmjTpWeight id n fd td db blocks ms k kp acc = jmjTpWeight id n fd td db blocks ms' k kp acc := by
  induction h with
  | nil => intro k kp acc; rfl
  | cons hm _ ih => intro k kp acc; simp only [jmjTpWeight, hm.jmjTp, hm.nParams, ih]

theorem blindPush [Zero α] [One α] [Add α] (id : Nat) (b : Bool) : BlindPush (mod id b ms) (mod id b ms') := by
  have hn : nParams ms = nParams ms' := nParams_rel h fun _ _ hm => hm.nParams
  refine ⟨hn, ?_⟩
  intro x v A wrt fd td db
  cases wrt <;>
    simp only [mod, jmjTp, getVal, jmjTpInput_push h, jmjTpWeight_push h, splitBlocks_push h, hn, h.length_eq]

end Push
end Sequential

section
variable {α : Type} [Zero α] [One α] [Add α] [Mul α]

theorem SkipConnection.blindBack {F F' : Mod α} (h : BlindBack F F') (id : Nat) : BlindBack (mod id F) (mod id F') := by
  have hj : ∀ n x v wrt, jacobian F n x (some v) wrt = jacobian F' n x (some v) wrt := by
    intro n x v wrt
    cases wrt <;> simp only [jacobian, getVal, h.jacobian]
  have ht : ∀ (v : Tensor α) (l : Nat) {β : Type} (g g' : Option (Tensor α) → Prog α β),
      (∀ w, g (some w) = g' (some w)) →
      ((liftM (tailVal (some v) l) : Prog α _) >>= g) = ((liftM (tailVal (some v) l) : Prog α _) >>= g') := by
    intro v l β g g' hg
    refine bind_congr_post (P := fun o => ∃ w, o = some w) ?_ (by rintro _ ⟨w, rfl⟩; exact hg w)
    intro s o s' ho
    have : tailVal (some v) l = .ok o := by
      have := congrArg Prod.fst ho
      exact this
    replace this : (v.dim 1 >>= fun n => some <$> v.slice 1 l n) = Except.ok o := this
    cases hd : v.dim 1 with
    | error e => rw [hd] at this; cases this
    | ok n =>
        rw [hd] at this
        replace this : some <$> v.slice 1 l n = Except.ok o := this
        cases hsl : v.slice 1 l n with
        | error e => rw [hsl] at this; cases this
        | ok w => rw [hsl] at this; cases this; exact ⟨w, rfl⟩
  refine ⟨h.nParams, ?_, ?_, ?_, ?_⟩ <;> simp only [mod]
  · intro x v wrt; rw [hj, h.nParams]
  · intro x v u wrt
    unfold vjp
    refine bind_congr_right fun l => ht v l _ _ fun w => ?_
    simp only [h.vjp]
  · intro x v A wrt
    cases A with
    | none => simp only [mjp, hj, h.nParams]
    | some A =>
        unfold mjp
        refine bind_congr_right fun l => ht v l _ _ fun w => ?_
        simp only [h.mjp]
  · intro x v A wrt f t db
    unfold jTmjp
    refine bind_congr_right fun _ => bind_congr_right fun y => ?_
    refine bind_congr_right fun l => ht y l _ _ fun w => ?_
    simp only [h.mjp, h.jTmjp]

mutual
theorem Blinded.back {sk : Bool} {m m' : Mod α} (h : Blinded sk m m') : BlindBack m m' := by
  match h with
  | .leaf m => exact sameBack_blind m
  | .seq id b h => exact Sequential.blindBack h.back id b
  | .skip id _ h => exact SkipConnection.blindBack h.back id
theorem BlindedL.back {sk : Bool} {ms ms' : List (Mod α)} (h : BlindedL sk ms ms') : List.Forall₂ BlindBack ms ms' := by
  match h with
  | .nil => exact .nil
  | .cons h hs => exact .cons h.back hs.back
end

mutual
theorem Blinded.push {m m' : Mod α} (h : Blinded false m m') : BlindPush m m' := by
  match h with
  | .leaf m => exact samePush_blind m
  | .seq id b h => exact Sequential.blindPush h.push id b
  | .skip id hs h => cases hs
theorem BlindedL.push {ms ms' : List (Mod α)} (h : BlindedL false ms ms') : List.Forall₂ BlindPush ms ms' := by
  match h with
  | .nil => exact .nil
  | .cons h hs => exact .cons h.push hs.push
end
end

/-- the program, if it returns, increases the number by `k` -/
def Adds {α β : Type} (cnt : Store α → Nat) (k : Nat) (p : Prog α β) : Prop :=
  ∀ s r s', p s = (.ok r, s') → cnt s' = cnt s + k

section
variable {α β γ : Type} {cnt : Store α → Nat}

theorem Adds.bind {a b : Nat} {p : Prog α β} {f : β → Prog α γ} (h : Adds cnt a p) (hf : ∀ v, Adds cnt b (f v)) :
    Adds cnt (a + b) (p >>= f) := by
  intro s r s' hr
  rw [Prog.bind_run] at hr
  rcases hs : p s with ⟨q, t⟩
  rw [hs] at hr
  cases q with
  | error e => cases hr
  | ok v => rw [hf v t r s' hr, h s v t hs, Nat.add_assoc]

theorem Adds.keep {b : Nat} {p : Prog α β} {f : β → Prog α γ} (h : Adds cnt 0 p) (hf : ∀ v, Adds cnt b (f v)) :
    Adds cnt b (p >>= f) := by
  have := h.bind hf
  rwa [Nat.zero_add] at this

/-- nothing but the result depends on the state -/
theorem adds_same {p : Prog α β} (h : ∀ s, (p s).2 = s) : Adds cnt 0 p := by
  intro s r s' hr
  have := h s
  rw [hr] at this
  cases this
  rfl

theorem adds_lift (r : Res β) : Adds cnt 0 (liftM r : Prog α β) := adds_same fun _ => rfl
theorem adds_pure (r : β) : Adds cnt 0 (Pure.pure r : Prog α β) := adds_same fun _ => rfl
theorem adds_assert (c : Bool) : Adds cnt 0 (Prog.assert c : Prog α Unit) := adds_same fun _ => by
  unfold Prog.assert; split <;> rfl
theorem adds_need (o : Option (Tensor α)) : Adds cnt 0 (Prog.need o) := adds_same fun _ => by
  cases o <;> rfl
theorem adds_fmap (id k : Nat) : Adds cnt 0 (Sequential.fmap id k) := adds_same fun s => by
  unfold Sequential.fmap; split
  · rfl
  · split <;> rfl
theorem adds_child (ms : List (Mod α)) (k : Nat) : Adds cnt 0 (Sequential.child ms k) := adds_same fun s => by
  unfold Sequential.child; split <;> rfl

theorem adds_hooks (hf : ∀ (s : Store α) f, cnt { s with fmaps := f } = cnt s) (v : Tensor α) (is : List Nat) :
    Adds cnt 0 (Mod.runHooks v is) := by
  induction is with
  | nil => exact adds_pure ()
  | cons i is ih =>
      refine Adds.keep (fun s r s' hr => ?_) fun _ => ih
      unfold Mod.runHook at hr
      split at hr
      · cases hr; rw [hf]; rfl
      · cases hr

theorem adds_call (hf : ∀ (s : Store α) f, cnt { s with fmaps := f } = cnt s) {m : Mod α} {k : Nat} {x : Tensor α}
    (h : Adds cnt k (m.forward x)) : Adds cnt k (m.call x) := by
  have := h.bind (b := 0) (f := fun v => (Prog.read fun s => s.hooks m.id) >>= fun hs => Mod.runHooks v hs >>= fun _ => Pure.pure v)
    fun v => Adds.keep (adds_same fun _ => rfl) fun hs => Adds.keep (adds_hooks hf v hs) fun _ => adds_pure v
  exact this

variable [Zero α] [One α] [Add α] {m : Mod α} (hc : Counts cnt m)
include hc

theorem nest_forward (ids : List Nat) : ∀ x, Adds cnt 1 ((nest m ids).forward x) := by
  induction ids with
  | nil => exact hc.forward
  | cons id ids ih =>
      intro x
      have h1 : Adds cnt 1 (Sequential.run [nest m ids] x) := by
        have := (adds_call hc.fmaps (ih x)).bind fun v => adds_pure (cnt := cnt) v
        exact this
      refine Adds.keep (fun s r s' hr => ?_) fun _ => h1
      cases hr
      rw [hc.fmaps]
      rfl

theorem nest_jvp (ids : List Nat) : ∀ x v u wrt, wrt ≠ .other → Adds cnt ids.length ((nest m ids).jvp x (some v) u wrt) := by
  induction ids with
  | nil => exact fun x v u wrt _ => hc.jvp x v u wrt
  | cons id ids ih =>
      intro x v u wrt hw
      have hcall := adds_call hc.fmaps (nest_forward hc ids x)
      rw [List.length_cons, Nat.add_comm]
      refine Adds.keep (adds_assert _) fun _ => ?_
      cases wrt with
      | input =>
          have h1 : Adds cnt (1 + ids.length) (Sequential.jvpInput [nest m ids] x u) :=
            hcall.bind fun y => (ih x y u .input (by simp)).bind fun o => (adds_need o).bind fun w => adds_pure w
          exact h1.bind fun r => adds_pure (some r)
      | weight =>
          have h1 : Adds cnt (1 + ids.length) (Sequential.jvpWeight u [nest m ids] x 0 none) := by
            refine hcall.bind fun y => ?_
            refine Adds.keep (adds_pure none) fun a => ?_
            refine Adds.keep (adds_lift _) fun vec => ?_
            exact (ih x y vec .weight (by simp)).bind fun o => (adds_lift _).bind fun a => adds_pure _
          exact h1.bind fun r => (adds_assert _).bind fun _ => adds_pure _
      | other => exact absurd rfl hw

theorem nest_jmp (ids : List Nat) : ∀ x v u wrt, wrt ≠ .other → Adds cnt ids.length ((nest m ids).jmp x (some v) (some u) wrt) := by
  induction ids with
  | nil => exact fun x v u wrt _ => hc.jmp x v u wrt
  | cons id ids ih =>
      intro x v u wrt hw
      have hcall := adds_call hc.fmaps (nest_forward hc ids x)
      rw [List.length_cons, Nat.add_comm]
      refine Adds.keep (adds_assert _) fun _ => ?_
      cases wrt with
      | input =>
          have h1 : Adds cnt (1 + ids.length) (Sequential.jmpInput [nest m ids] x u) :=
            hcall.bind fun y => (ih x y u .input (by simp)).bind fun o => (adds_need o).bind fun w => adds_pure w
          exact h1.bind fun r => adds_pure (some r)
      | weight =>
          have h1 : Adds cnt (1 + ids.length) (Sequential.jmpWeight u [nest m ids] x 0 none) := by
            refine hcall.bind fun y => ?_
            refine Adds.keep (adds_pure none) fun a => ?_
            refine Adds.keep (adds_lift _) fun vec => ?_
            exact (ih x y vec .weight (by simp)).bind fun o => (adds_lift _).bind fun a => adds_pure _
          exact h1.bind fun r => (adds_assert _).bind fun _ => adds_pure _
      | other => exact absurd rfl hw

theorem nest_vjp (ids : List Nat) : ∀ x v u wrt, wrt ≠ .other → Adds cnt 0 ((nest m ids).vjp x (some v) u wrt) := by
  induction ids with
  | nil => exact fun x v u wrt _ => hc.vjp x v u wrt
  | cons id ids ih =>
      intro x v u wrt hw
      refine Adds.keep (adds_assert _) fun _ => Adds.keep (adds_pure v) fun _ => ?_
      cases wrt with
      | input =>
          refine Adds.keep (p := Sequential.vjpInput id [nest m ids] 1 u) ?_ fun r => adds_pure (some r)
          have h1 : Adds cnt 0 (Sequential.fmap id 0 >>= fun x => Sequential.fmap id 1 >>= fun v =>
              (nest m ids).vjp x (some v) u .input >>= fun o => Prog.need o >>= fun w => Sequential.vjpInput id [nest m ids] 0 w) :=
            (adds_fmap id 0).keep fun x => (adds_fmap id 1).keep fun v => (ih x v u .input (by simp)).keep fun o =>
              (adds_need o).keep fun w => adds_pure w
          exact fun s r s' hr => h1 s r s' hr
      | weight =>
          refine Adds.keep (p := Sequential.vjpWeight id [nest m ids] 1 u []) ?_ fun r => adds_lift _
          have h1 : Adds cnt 0 (Sequential.fmap id 0 >>= fun x => Sequential.fmap id 1 >>= fun v =>
              (nest m ids).vjp x (some v) u .weight >>= fun o => (Pure.pure (o.toList ++ []) : Prog α (List (Tensor α)))) :=
            (adds_fmap id 0).keep fun x => (adds_fmap id 1).keep fun v => (ih x v u .weight (by simp)).keep fun o =>
              adds_pure _
          exact fun s r s' hr => h1 s r s' hr
      | other => exact absurd rfl hw

theorem nest_mjp (ids : List Nat) : ∀ x v u wrt, wrt ≠ .other → Adds cnt 0 ((nest m ids).mjp x (some v) (some u) wrt) := by
  induction ids with
  | nil => exact fun x v u wrt _ => hc.mjp x v u wrt
  | cons id ids ih =>
      intro x v u wrt hw
      refine Adds.keep (adds_assert _) fun _ => Adds.keep (adds_pure v) fun _ =>
        Adds.keep (adds_lift _) fun u => ?_
      cases wrt with
      | input =>
          refine Adds.keep (p := Sequential.mjpInput id [nest m ids] 1 u) ?_ fun r => adds_pure (some r)
          have h1 : Adds cnt 0 (Sequential.fmap id 0 >>= fun x => Sequential.fmap id 1 >>= fun v =>
              (nest m ids).mjp x (some v) (some u) .input >>= fun o => Prog.need o >>= fun w => Sequential.mjpInput id [nest m ids] 0 w) :=
            (adds_fmap id 0).keep fun x => (adds_fmap id 1).keep fun v => (ih x v u .input (by simp)).keep fun o =>
              (adds_need o).keep fun w => adds_pure w
          exact fun s r s' hr => h1 s r s' hr
      | weight =>
          refine Adds.keep (p := Sequential.mjpWeight id [nest m ids] 1 u []) ?_ fun r => adds_lift _
          have h1 : Adds cnt 0 (Sequential.fmap id 0 >>= fun x => Sequential.fmap id 1 >>= fun v =>
              (nest m ids).mjp x (some v) (some u) .weight >>= fun o => (Pure.pure (o.toList ++ []) : Prog α (List (Tensor α)))) :=
            (adds_fmap id 0).keep fun x => (adds_fmap id 1).keep fun v => (ih x v u .weight (by simp)).keep fun o =>
              adds_pure _
          exact fun s r s' hr => h1 s r s' hr
      | other => exact absurd rfl hw

end
end NNJ
