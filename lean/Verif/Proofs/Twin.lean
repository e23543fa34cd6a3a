import Verif.Proofs.Tame

/-! The methods of a network do not notice the hooks of a Sequential that is not inside it: two states
that differ only in the feature maps of `q` and in the hooks that write to them give the same results. -/

namespace NNJ
open Tensor

/-- `s` and `t` agree, except that in `s` some modules have hooks of the Sequential `q`, which has its
attribute `feature_maps`, and in `t` no module has, and `q` does not have the attribute. -/
structure Twin (q : Nat) (s t : Store ℝ) : Prop where
  param : s.param = t.param
  pidx : s.pidx = t.pidx
  fmaps : ∀ i, i ≠ q → s.fmaps i = t.fmaps i
  some : (s.fmaps q).isSome
  none : t.fmaps q = none
  hooks : ∀ i, (s.hooks i).filter (· ≠ q) = t.hooks i

/-- same result on twin states, and twin states afterwards -/
def SP2 {β : Type} (q : Nat) (p p' : Prog ℝ β) : Prop := ∀ s t, Twin q s t → (p s).1 = (p' t).1 ∧ Twin q (p s).2 (p' t).2

abbrev SP {β : Type} (q : Nat) (p : Prog ℝ β) : Prop := SP2 q p p

namespace SP
variable {β γ : Type} {q : Nat}
theorem pure (b : β) : SP q (Pure.pure b : Prog ℝ β) := fun _ _ h => ⟨rfl, h⟩
theorem pure' (b : β) : SP q (Prog.pure b : Prog ℝ β) := fun _ _ h => ⟨rfl, h⟩
theorem throw (e : Err) : SP q (Prog.throw e : Prog ℝ β) := fun _ _ h => ⟨rfl, h⟩
theorem lift (r : Res β) : SP q (liftM r : Prog ℝ β) := fun _ _ h => ⟨rfl, h⟩
theorem assert (c : Bool) : SP q (Prog.assert c : Prog ℝ Unit) := by
  cases c
  · exact throw _
  · exact pure' _
theorem need (v : Option (Tensor ℝ)) : SP q (Prog.need v : Prog ℝ (Tensor ℝ)) := by
  cases v
  · exact throw _
  · exact pure' _
theorem same {p : Prog ℝ β} (h : ∀ s, (p s).2 = s) (h' : ∀ s t, Twin q s t → (p s).1 = (p t).1) : SP q p := fun s t ht =>
  ⟨h' s t ht, by rw [h s, h t]; exact ht⟩
theorem bind2 {p p' : Prog ℝ β} {f f' : β → Prog ℝ γ} (hp : SP2 q p p') (hf : ∀ b, SP2 q (f b) (f' b)) : SP2 q (p >>= f) (p' >>= f') := by
  intro s t ht
  obtain ⟨h1, h2⟩ := hp s t ht
  rw [Prog.bind_run, Prog.bind_run]
  rcases hps : p s with ⟨r, s'⟩
  rcases hpt : p' t with ⟨r', t'⟩
  rw [hps, hpt] at h1 h2
  replace h1 : r = r' := h1
  subst h1
  cases r with
  | ok b => exact hf b s' t' h2
  | error e => exact ⟨rfl, h2⟩
theorem bind {p : Prog ℝ β} {f : β → Prog ℝ γ} (hp : SP q p) (hf : ∀ b, SP q (f b)) : SP q (p >>= f) := bind2 hp hf
end SP

/-- solves `SP` goals of do-blocks -/
macro "sims" : tactic => `(tactic| repeat' (first
  | assumption
  | apply SP.pure | apply SP.pure' | apply SP.throw | apply SP.lift | apply SP.assert | apply SP.need
  | (refine SP.bind ?_ fun _ => ?_)
  | split))

variable {q : Nat}

/-- a hook of another Sequential -/
theorem sp_runHook (v : Tensor ℝ) {i : Nat} (hi : i ≠ q) : SP q (Mod.runHook v i) := by
  intro s t h
  have e := h.fmaps i hi
  cases ht : t.fmaps i with
  | none =>
    rw [ht] at e
    simp only [Mod.runHook, ht, e]
    exact ⟨trivial, h⟩
  | some l =>
    rw [ht] at e
    simp only [Mod.runHook, ht, e]
    refine ⟨trivial, h.param, h.pidx, fun j hj => ?_, ?_, ?_, h.hooks⟩
    · by_cases hji : j = i
      · simp [hji]
      · simpa [hji] using h.fmaps j hj
    · simpa [hi.symm] using h.some
    · simpa [hi.symm] using h.none

theorem sp_runHooks (v : Tensor ℝ) (is : List Nat) : SP2 q (Mod.runHooks v is) (Mod.runHooks v (is.filter (· ≠ q))) := by
  induction is with
  | nil => exact SP.pure' _
  | cons i is ih =>
    by_cases hi : i = q
    · subst hi
      intro s t h
      obtain ⟨l, hl⟩ := Option.isSome_iff_exists.1 h.some
      have hs : Mod.runHooks v (i :: is) s = Mod.runHooks v is { s with fmaps := fun j => if j = i then some (l ++ [v]) else s.fmaps j } := by
        simp only [Mod.runHooks]
        exact Prog.bind_ok (b := ()) (by simp only [Mod.runHook, hl])
      rw [hs]
      have hf : (i :: is).filter (· ≠ i) = is.filter (· ≠ i) := by simp
      rw [hf]
      refine ih _ _ ⟨h.param, h.pidx, fun j hj => ?_, by simp, h.none, h.hooks⟩
      simpa [hj] using h.fmaps j hj
    · have hf : (i :: is).filter (· ≠ q) = i :: is.filter (· ≠ q) := by simp [hi]
      rw [hf]
      exact SP.bind2 (sp_runHook v hi) fun _ => ih

/-- every method is insensitive -/
structure Insens (q : Nat) (m : Mod ℝ) : Prop where
  forward : ∀ x, SP q (m.forward x)
  jacobian : ∀ x v w, SP q (m.jacobian x v w)
  jvp : ∀ x v u w, SP q (m.jvp x v u w)
  jmp : ∀ x v u w, SP q (m.jmp x v u w)
  jmjTp : ∀ x v u w a b c, SP q (m.jmjTp x v u w a b c)
  vjp : ∀ x v u w, SP q (m.vjp x v u w)
  mjp : ∀ x v u w, SP q (m.mjp x v u w)
  jTmjp : ∀ x v u w a b c, SP q (m.jTmjp x v u w a b c)

theorem Insens.call {m : Mod ℝ} (h : Insens q m) (x : Tensor ℝ) : SP q (m.call x) := by
  refine SP.bind (h.forward x) fun v => ?_
  intro s t ht
  have key := sp_runHooks (q := q) v (s.hooks m.id)
  rw [ht.hooks m.id] at key
  exact SP.bind2 key (fun _ => SP.pure v) s t ht

theorem insens_pure {L : Store ℝ → PureLayer ℝ} (hL : ∀ s t, s.param = t.param → L s = L t) (id np : Nat) (ps : List Nat) :
    Insens q (PureLayer.toMod L id np ps) := by
  constructor <;> intros <;> (intro s t ht; have e := hL s t ht.param; exact ⟨by simp only [PureLayer.toMod, e], ht⟩)

/-! ### MaxPool2d -/

section
open MaxPool2d

theorem sp_poolForward (id : Nat) (a : Torch.PoolArgs) (x : Tensor ℝ) : SP q (MaxPool2d.forward id a x) := by
  refine SP.bind (SP.lift _) fun r => SP.bind ?_ fun _ => SP.pure _
  exact fun s t h => ⟨rfl, h.param, by simp only [Prog.modify, h.pidx], h.fmaps, h.some, h.none, h.hooks⟩

theorem sp_poolVal (id : Nat) (a : Torch.PoolArgs) (x : Tensor ℝ) (val : Option (Tensor ℝ)) : SP q (getVal id a x val) := by
  cases val with
  | none => exact sp_poolForward id a x
  | some v => exact SP.pure' v

theorem sp_poolIdx (id : Nat) : SP q (getIdx id : Prog ℝ (Tensor Nat)) := by
  refine SP.same (fun s => ?_) fun s t h => ?_
  · simp only [getIdx]
    split <;> rfl
  · simp only [getIdx, h.pidx]
    split <;> rfl

theorem sp_poolJmp (id : Nat) (a : Torch.PoolArgs) (x : Tensor ℝ) (val : Option (Tensor ℝ)) (m : Tensor ℝ) (w : Wrt) : SP q (jmpSome id a x val m w) := by
  cases w with
  | input => exact SP.bind (sp_poolVal _ _ _ _) fun _ => SP.bind (sp_poolIdx _) fun _ => SP.bind (SP.lift _) fun _ => SP.pure _
  | weight => exact SP.pure _
  | other => exact SP.pure _

theorem sp_poolJac (id : Nat) (a : Torch.PoolArgs) (x : Tensor ℝ) (val : Option (Tensor ℝ)) (w : Wrt) : SP q (MaxPool2d.jacobian id a x val w) := by
  cases w with
  | input =>
    exact SP.bind (sp_poolVal _ _ _ _) fun _ => SP.bind (SP.lift _) fun _ => SP.bind (SP.lift _) fun _ => SP.bind (SP.assert _) fun _ =>
      SP.bind (SP.lift _) fun _ => sp_poolJmp _ _ _ _ _ _
  | weight => exact SP.pure _
  | other => exact SP.pure _

theorem insens_pool (a : Torch.PoolArgs) (id : Nat) : Insens q (MaxPool2d.mod a id) where
  forward := sp_poolForward id a
  jacobian := sp_poolJac id a
  jvp x v u w := by
    show SP q (MaxPool2d.jvp x v u w)
    cases w with
    | input => exact SP.throw _
    | weight => exact SP.pure _
    | other => exact SP.pure _
  jmp x v u w := by
    show SP q (MaxPool2d.jmp id a x v u w)
    cases u with
    | none => exact sp_poolJac _ _ _ _ _
    | some m => exact sp_poolJmp _ _ _ _ _ _
  jmjTp x v u w fd td db := by
    show SP q (MaxPool2d.jmjTp id a x v u w fd td db)
    refine SP.bind (sp_poolVal _ _ _ _) fun _ => ?_
    cases w with
    | input => exact SP.throw _
    | weight => exact SP.pure _
    | other => exact SP.pure _
  vjp x v u w := by
    show SP q (MaxPool2d.vjp id a x v u w)
    cases w with
    | input => exact SP.bind (sp_poolVal _ _ _ _) fun _ => SP.bind (sp_poolIdx _) fun _ => SP.bind (SP.lift _) fun _ => SP.pure _
    | weight => exact SP.pure _
    | other => exact SP.pure _
  mjp x v u w := by
    show SP q (MaxPool2d.mjp id a x v u w)
    cases u with
    | none => exact sp_poolJac _ _ _ _ _
    | some m =>
      cases w with
      | input => exact SP.bind (sp_poolVal _ _ _ _) fun _ => SP.bind (sp_poolIdx _) fun _ => SP.bind (SP.lift _) fun _ => SP.pure _
      | weight => exact SP.pure _
      | other => exact SP.pure _
  jTmjp x v u w fd td db := by
    show SP q (MaxPool2d.jTmjp id a x v u w fd td db)
    refine SP.bind (sp_poolVal _ _ _ _) fun _ => SP.bind (SP.lift _) fun _ => SP.bind (SP.lift _) fun _ => SP.bind (SP.assert _) fun _ =>
      SP.bind (SP.lift _) fun _ => ?_
    have h0 := sp_poolIdx (q := q) id
    have h : ∀ f : Tensor Nat → Prog ℝ (PyVal ℝ), (∀ i, SP q (f i)) → SP q (getIdx id >>= f) := fun f hf => SP.bind (sp_poolIdx _) hf
    cases w with
    | input =>
      split
      dsimp only
      split
      · exact SP.bind (SP.assert _) fun _ => h _ fun _ => SP.bind (SP.lift _) fun _ => SP.pure _
      · exact SP.bind (SP.assert _) fun _ => h _ fun _ => SP.bind (SP.lift _) fun _ => SP.pure _
    | weight => sims
    | other => sims

end

/-! ### Sequential -/

section
variable {ms : List (Mod ℝ)}

theorem sp_fmap {id : Nat} (hid : id ≠ q) (k : Nat) : SP q (Sequential.fmap id k : Prog ℝ (Tensor ℝ)) := by
  refine SP.same (fun s => ?_) fun s t h => ?_
  · simp only [Sequential.fmap]
    split
    · rfl
    · split <;> rfl
  · simp only [Sequential.fmap, h.fmaps id hid]
    split
    · rfl
    · split <;> rfl

theorem sp_child (ms : List (Mod ℝ)) (hms : ∀ m ∈ ms, Insens q m) (k : Nat) {β : Type} {f : Mod ℝ → Prog ℝ β}
    (hf : ∀ m, Insens q m → SP q (f m)) : SP q (Sequential.child ms k >>= f) := by
  intro s t ht
  rw [Prog.bind_run, Prog.bind_run]
  simp only [Sequential.child]
  cases h : ms[k]? with
  | none => exact ⟨rfl, ht⟩
  | some m => exact hf m (hms m (List.mem_of_getElem? h)) s t ht

theorem sp_listGet (vs : List (PyVal ℝ)) (k : Nat) : SP q (Sequential.listGet vs k) := by
  refine SP.same (fun s => ?_) fun s t _ => ?_ <;>
  · simp only [Sequential.listGet]
    split <;> rfl

theorem sp_run (h : ∀ m ∈ ms, Insens q m) (x : Tensor ℝ) : SP q (Sequential.run ms x) := by
  induction ms generalizing x with
  | nil => exact SP.pure _
  | cons m ms ih => exact SP.bind ((h m (by simp)).call x) fun _ => ih (fun m hm => h m (by simp [hm])) _

theorem sp_seqForward (h : ∀ m ∈ ms, Insens q m) {id : Nat} (hid : id ≠ q) (x : Tensor ℝ) : SP q (Sequential.forward id true ms x) := by
  simp only [Sequential.forward, if_true]
  refine SP.bind ?_ fun _ => sp_run h x
  intro s t ht
  refine ⟨rfl, ht.param, ht.pidx, fun j hj => ?_, ?_, ?_, ht.hooks⟩
  · by_cases e : j = id
    · simp [Prog.modify, e]
    · simpa [Prog.modify, e] using ht.fmaps j hj
  · simpa [Prog.modify, hid.symm] using ht.some
  · simpa [Prog.modify, hid.symm] using ht.none

theorem sp_getVal (h : ∀ m ∈ ms, Insens q m) {id : Nat} (hid : id ≠ q) (x : Tensor ℝ) (val : Option (Tensor ℝ)) : SP q (Sequential.getVal id true ms x val) := by
  cases val with
  | none => exact sp_seqForward h hid x
  | some v => exact SP.pure _

theorem sp_jvpInput (h : ∀ m ∈ ms, Insens q m) (x v : Tensor ℝ) : SP q (Sequential.jvpInput ms x v) := by
  induction ms generalizing x v with
  | nil => exact SP.pure _
  | cons m ms ih =>
    have hm := h m (by simp)
    simp only [Sequential.jvpInput]
    exact SP.bind (hm.call x) fun _ => SP.bind (hm.jvp _ _ _ _) fun _ => SP.bind (SP.need _) fun _ => ih (fun m hm => h m (by simp [hm])) _ _

theorem sp_through (acc : Option (Tensor ℝ)) (f : Tensor ℝ → Prog ℝ (Option (Tensor ℝ))) (h : ∀ a, SP q (f a)) :
    SP q (Sequential.through acc f) := by
  cases acc with
  | none => exact SP.pure _
  | some a => exact h a

theorem sp_jvpWeight (h : ∀ m ∈ ms, Insens q m) (u x : Tensor ℝ) (p : Nat) (acc : Option (Tensor ℝ)) : SP q (Sequential.jvpWeight u ms x p acc) := by
  induction ms generalizing x p acc with
  | nil => exact SP.pure _
  | cons m ms ih =>
    have hm := h m (by simp)
    simp only [Sequential.jvpWeight]
    exact SP.bind (hm.call x) fun _ => SP.bind (sp_through _ _ fun _ => hm.jvp _ _ _ _) fun _ => SP.bind (SP.lift _) fun _ =>
      SP.bind (hm.jvp _ _ _ _) fun _ => SP.bind (SP.lift _) fun _ => ih (fun m hm => h m (by simp [hm])) _ _ _

theorem sp_jmpInput (h : ∀ m ∈ ms, Insens q m) (x v : Tensor ℝ) : SP q (Sequential.jmpInput ms x v) := by
  induction ms generalizing x v with
  | nil => exact SP.pure _
  | cons m ms ih =>
    have hm := h m (by simp)
    simp only [Sequential.jmpInput]
    exact SP.bind (hm.call x) fun _ => SP.bind (hm.jmp _ _ _ _) fun _ => SP.bind (SP.need _) fun _ => ih (fun m hm => h m (by simp [hm])) _ _

theorem sp_jmpWeight (h : ∀ m ∈ ms, Insens q m) (u x : Tensor ℝ) (p : Nat) (acc : Option (Tensor ℝ)) : SP q (Sequential.jmpWeight u ms x p acc) := by
  induction ms generalizing x p acc with
  | nil => exact SP.pure _
  | cons m ms ih =>
    have hm := h m (by simp)
    simp only [Sequential.jmpWeight]
    exact SP.bind (hm.call x) fun _ => SP.bind (sp_through _ _ fun _ => hm.jmp _ _ _ _) fun _ => SP.bind (SP.lift _) fun _ =>
      SP.bind (hm.jmp _ _ _ _) fun _ => SP.bind (SP.lift _) fun _ => ih (fun m hm => h m (by simp [hm])) _ _ _

theorem sp_vjpInput (h : ∀ m ∈ ms, Insens q m) {id : Nat} (hid : id ≠ q) (k : Nat) (v : Tensor ℝ) : SP q (Sequential.vjpInput id ms k v) := by
  induction k generalizing v with
  | zero => exact SP.pure _
  | succ k ih =>
    simp only [Sequential.vjpInput]
    exact sp_child ms h k fun m hm => SP.bind (sp_fmap hid _) fun _ => SP.bind (sp_fmap hid _) fun _ => SP.bind (hm.vjp _ _ _ _) fun _ =>
      SP.bind (SP.need _) fun _ => ih _

theorem sp_vjpWeight (h : ∀ m ∈ ms, Insens q m) {id : Nat} (hid : id ≠ q) (k : Nat) (v : Tensor ℝ) (vs : List (Tensor ℝ)) : SP q (Sequential.vjpWeight id ms k v vs) := by
  induction k generalizing v vs with
  | zero => exact SP.pure _
  | succ k ih =>
    simp only [Sequential.vjpWeight]
    refine sp_child ms h k fun m hm => SP.bind (sp_fmap hid _) fun _ => SP.bind (sp_fmap hid _) fun _ => SP.bind (hm.vjp _ _ _ _) fun _ => ?_
    split
    · exact SP.pure _
    · exact SP.bind (hm.vjp _ _ _ _) fun _ => SP.bind (SP.need _) fun _ => ih _ _

theorem sp_mjpInput (h : ∀ m ∈ ms, Insens q m) {id : Nat} (hid : id ≠ q) (k : Nat) (v : Tensor ℝ) : SP q (Sequential.mjpInput id ms k v) := by
  induction k generalizing v with
  | zero => exact SP.pure _
  | succ k ih =>
    simp only [Sequential.mjpInput]
    exact sp_child ms h k fun m hm => SP.bind (sp_fmap hid _) fun _ => SP.bind (sp_fmap hid _) fun _ => SP.bind (hm.mjp _ _ _ _) fun _ =>
      SP.bind (SP.need _) fun _ => ih _

theorem sp_mjpWeight (h : ∀ m ∈ ms, Insens q m) {id : Nat} (hid : id ≠ q) (k : Nat) (v : Tensor ℝ) (vs : List (Tensor ℝ)) : SP q (Sequential.mjpWeight id ms k v vs) := by
  induction k generalizing v vs with
  | zero => exact SP.pure _
  | succ k ih =>
    simp only [Sequential.mjpWeight]
    refine sp_child ms h k fun m hm => SP.bind (sp_fmap hid _) fun _ => SP.bind (sp_fmap hid _) fun _ => SP.bind (hm.mjp _ _ _ _) fun _ => ?_
    split
    · exact SP.pure _
    · exact SP.bind (hm.mjp _ _ _ _) fun _ => SP.bind (SP.need _) fun _ => ih _ _

theorem sp_jTmjpInput (h : ∀ m ∈ ms, Insens q m) {id : Nat} (hid : id ≠ q) (n : Nat) (a b c : Bool) (k : Nat) (v : Option (Tensor ℝ)) :
    SP q (Sequential.jTmjpInput id n ms a b c k v) := by
  induction k generalizing v with
  | zero => exact SP.pure _
  | succ k ih =>
    simp only [Sequential.jTmjpInput]
    exact sp_child ms h k fun m hm => SP.bind (sp_fmap hid _) fun _ => SP.bind (sp_fmap hid _) fun _ => SP.bind (hm.jTmjp _ _ _ _ _ _ _) fun _ =>
      SP.bind (SP.lift _) fun _ => ih _

theorem sp_jTmjpWeight (h : ∀ m ∈ ms, Insens q m) {id : Nat} (hid : id ≠ q) (n : Nat) (a b c : Bool) (k : Nat) (v : Option (Tensor ℝ)) (vs : List (PyVal ℝ)) :
    SP q (Sequential.jTmjpWeight id n ms a b c k v vs) := by
  induction k generalizing v vs with
  | zero => exact SP.pure _
  | succ k ih =>
    simp only [Sequential.jTmjpWeight]
    refine sp_child ms h k fun m hm => SP.bind (sp_fmap hid _) fun _ => SP.bind (sp_fmap hid _) fun _ => SP.bind (hm.jTmjp _ _ _ _ _ _ _) fun _ => ?_
    split
    · exact SP.pure _
    · exact SP.bind (hm.jTmjp _ _ _ _ _ _ _) fun _ => SP.bind (SP.lift _) fun _ => ih _ _

theorem sp_jmjTpInput (h : ∀ m ∈ ms, Insens q m) {id : Nat} (hid : id ≠ q) (n : Nat) (a b c : Bool) (k : Nat) (v : PyVal ℝ) :
    SP q (Sequential.jmjTpInput id n a b c ms k v) := by
  induction ms generalizing k v with
  | nil => exact SP.pure _
  | cons m ms ih =>
    have hm := h m (by simp)
    simp only [Sequential.jmjTpInput]
    exact SP.bind (sp_fmap hid _) fun _ => SP.bind (sp_fmap hid _) fun _ => SP.bind (hm.jmjTp _ _ _ _ _ _ _) fun _ =>
      ih (fun m hm => h m (by simp [hm])) _ _

theorem sp_jmjTpWeight (h : ∀ m ∈ ms, Insens q m) {id : Nat} (hid : id ≠ q) (n : Nat) (a b c : Bool) (bl : List (PyVal ℝ)) (k kp : Nat) (acc : Option (Tensor ℝ)) :
    SP q (Sequential.jmjTpWeight id n a b c bl ms k kp acc) := by
  induction ms generalizing k kp acc with
  | nil => exact SP.pure _
  | cons m ms ih =>
    have hm := h m (by simp)
    have ih' := ih (fun m hm => h m (by simp [hm]))
    simp only [Sequential.jmjTpWeight]
    refine SP.bind (sp_through _ _ fun _ => SP.bind (sp_fmap hid _) fun _ => SP.bind (sp_fmap hid _) fun _ => hm.jmjTp _ _ _ _ _ _ _) fun _ => ?_
    split
    · exact ih' _ _ _
    · exact SP.bind (sp_fmap hid _) fun _ => SP.bind (sp_fmap hid _) fun _ => SP.bind (sp_listGet _ _) fun _ =>
        SP.bind (hm.jmjTp _ _ _ _ _ _ _) fun _ => SP.bind (SP.lift _) fun _ => ih' _ _ _

theorem sp_seqMjp (h : ∀ m ∈ ms, Insens q m) {id : Nat} (hid : id ≠ q) (x : Tensor ℝ) (val M : Option (Tensor ℝ)) (w : Wrt) : SP q (Sequential.mjp id true ms x val M w) := by
  have h1 := @sp_mjpInput q ms h id hid
  have h2 := @sp_mjpWeight q ms h id hid
  simp only [Sequential.mjp]
  refine SP.bind (SP.assert _) fun _ => SP.bind (sp_getVal h hid _ _) fun _ => SP.bind (SP.lift _) fun _ => ?_
  split
  · exact SP.bind (h1 _ _) fun _ => SP.pure _
  · exact SP.bind (h2 _ _ _) fun _ => SP.lift _
  · exact SP.pure _

theorem insens_seq (h : ∀ m ∈ ms, Insens q m) {id : Nat} (hid : id ≠ q) : Insens q (Sequential.mod id true ms) where
  forward x := sp_seqForward h hid x
  jacobian x v w := sp_seqMjp h hid x v none w
  jvp x v u w := by
    simp only [Sequential.mod, Sequential.jvp]
    refine SP.bind (SP.assert _) fun _ => ?_
    cases w with
    | input => exact SP.bind (sp_jvpInput h _ _) fun _ => SP.pure _
    | weight => exact SP.bind (sp_jvpWeight h _ _ _ _) fun _ => SP.bind (SP.assert _) fun _ => SP.pure _
    | other => exact SP.pure _
  jmp x v u w := by
    simp only [Sequential.mod, Sequential.jmp]
    refine SP.bind (SP.assert _) fun _ => ?_
    cases u with
    | none => exact sp_seqMjp h hid x v none w
    | some u =>
      cases w with
      | input => exact SP.bind (sp_jmpInput h _ _) fun _ => SP.pure _
      | weight => exact SP.bind (sp_jmpWeight h _ _ _ _) fun _ => SP.bind (SP.assert _) fun _ => SP.pure _
      | other => exact SP.pure _
  jmjTp x v u w a b c := by
    simp only [Sequential.mod, Sequential.jmjTp]
    refine SP.bind (SP.assert _) fun _ => SP.bind (sp_getVal h hid _ _) fun _ => ?_
    cases w with
    | input => exact SP.bind (sp_jmjTpInput h hid _ _ _ _ _ _) fun _ => SP.lift _
    | weight =>
      have hW := @sp_jmjTpWeight q ms h id hid
      refine SP.bind (SP.lift _) fun _ => ?_
      split
      · exact SP.bind (SP.pure _) fun _ => hW _ _ _ _ _ _ _ _
      · exact SP.bind (SP.lift _) fun _ => SP.bind (SP.assert _) fun _ => SP.bind (SP.pure _) fun _ => hW _ _ _ _ _ _ _ _
      · exact SP.bind (SP.throw _) fun _ => hW _ _ _ _ _ _ _ _
    | other => exact SP.pure _
  vjp x v u w := by
    simp only [Sequential.mod, Sequential.vjp]
    refine SP.bind (SP.assert _) fun _ => SP.bind (sp_getVal h hid _ _) fun _ => ?_
    cases w with
    | input => exact SP.bind (sp_vjpInput h hid _ _) fun _ => SP.pure _
    | weight => exact SP.bind (sp_vjpWeight h hid _ _ _) fun _ => SP.lift _
    | other => exact SP.pure _
  mjp x v u w := sp_seqMjp h hid x v u w
  jTmjp x v u w a b c := by
    simp only [Sequential.mod, Sequential.jTmjp]
    refine SP.bind (SP.assert _) fun _ => SP.bind (sp_getVal h hid _ _) fun _ => SP.bind (SP.lift _) fun _ => ?_
    cases w with
    | input => exact SP.bind (sp_jTmjpInput h hid _ _ _ _ _ _) fun _ => SP.pure _
    | weight =>
      refine SP.bind (sp_jTmjpWeight h hid _ _ _ _ _ _ _) fun _ => ?_
      split
      · exact SP.pure _
      · split
        · exact SP.bind (SP.lift _) fun _ => SP.bind (SP.lift _) fun _ => SP.pure _
        · exact SP.pure _
    | other => exact SP.bind (sp_jTmjpInput h hid _ _ _ _ _ _) fun _ => SP.pure _

end

/-! ### SkipConnection -/

section
variable {F : Mod ℝ}

theorem sp_skipForward (h : Insens q F) (x : Tensor ℝ) : SP q (SkipConnection.forward F x) :=
  SP.bind (h.call x) fun _ => SP.lift _

theorem sp_skipGetVal (h : Insens q F) (x : Tensor ℝ) (val : Option (Tensor ℝ)) : SP q (SkipConnection.getVal F x val) := by
  cases val with
  | none => exact sp_skipForward h x
  | some v => exact SP.pure _

theorem sp_skipJacobian (h : Insens q F) (np : Nat) (x : Tensor ℝ) (val : Option (Tensor ℝ)) (w : Wrt) : SP q (SkipConnection.jacobian F np x val w) := by
  have h1 := h.jacobian
  have h2 := @sp_skipGetVal q F h
  simp only [SkipConnection.jacobian]
  refine SP.bind (h1 _ _ _) fun _ => SP.bind (SP.lift _) fun _ => SP.bind (SP.lift _) fun _ => SP.bind (h2 _ _) fun _ => ?_
  cases w <;> sims

theorem insens_skip (h : Insens q F) (id : Nat) : Insens q (SkipConnection.mod id F) where
  forward x := sp_skipForward h x
  jacobian x v w := sp_skipJacobian h _ x v w
  jvp x v u w := by
    simp only [SkipConnection.mod, SkipConnection.jvp]
    refine SP.bind (SP.lift _) fun _ => SP.bind (SP.lift _) fun _ => SP.bind (SP.lift _) fun _ => SP.bind (h.jvp _ _ _ _) fun _ => ?_
    cases w <;> sims
  jmp x v u w := by
    simp only [SkipConnection.mod, SkipConnection.jmp]
    cases u with
    | none => exact sp_skipJacobian h _ x v w
    | some u =>
      refine SP.bind (SP.lift _) fun _ => SP.bind (SP.lift _) fun _ => SP.bind (SP.lift _) fun _ => SP.bind (h.jmp _ _ _ _) fun _ => ?_
      cases w <;> sims
  jmjTp x v u w a b c := by
    simp only [SkipConnection.mod, SkipConnection.jmjTp]
    refine SP.bind (SP.assert _) fun _ => SP.bind (sp_skipGetVal h _ _) fun _ => SP.bind (SP.lift _) fun _ => SP.bind (SP.lift _) fun _ =>
      SP.bind (SP.lift _) fun _ => SP.bind (SP.lift _) fun _ => SP.bind (h.jmjTp _ _ _ _ _ _ _) fun _ => ?_
    have h1 : ∀ x v u w, SP q (F.jmp x v u w) := h.jmp
    cases w <;> cases u <;> cases a <;> cases b <;> dsimp only <;>
      repeat' (first | (with_reducible exact h1 _ _ _ _) | (with_reducible exact SP.pure _) | (with_reducible exact SP.throw _) | (with_reducible exact SP.lift _) | (with_reducible exact SP.need _) | (refine SP.bind ?_ fun _ => ?_))
  vjp x v u w := by
    simp only [SkipConnection.mod, SkipConnection.vjp]
    refine SP.bind (SP.lift _) fun _ => SP.bind (SP.lift _) fun _ => SP.bind (SP.lift _) fun _ => SP.bind (SP.lift _) fun _ =>
      SP.bind (h.vjp _ _ _ _) fun _ => ?_
    cases w <;> sims
  mjp x v u w := by
    simp only [SkipConnection.mod, SkipConnection.mjp]
    cases u with
    | none => exact sp_skipJacobian h _ x v w
    | some u =>
      refine SP.bind (SP.lift _) fun _ => SP.bind (SP.lift _) fun _ => SP.bind (SP.lift _) fun _ => SP.bind (SP.lift _) fun _ =>
        SP.bind (h.mjp _ _ _ _) fun _ => ?_
      cases w <;> sims
  jTmjp x v u w a b c := by
    simp only [SkipConnection.mod, SkipConnection.jTmjp]
    refine SP.bind (SP.assert _) fun _ => SP.bind (sp_skipGetVal h _ _) fun _ => SP.bind (SP.lift _) fun _ =>
      SP.bind (SP.lift _) fun _ => SP.bind (SP.lift _) fun _ => SP.bind (SP.lift _) fun _ => SP.bind (h.jTmjp _ _ _ _ _ _ _) fun _ => ?_
    have h1 : ∀ x v u w, SP q (F.mjp x v u w) := h.mjp
    cases w with
    | input =>
      refine SP.bind (SP.lift _) fun _ => ?_
      split
      · sims
      · sims
      · refine SP.bind (SP.lift _) fun _ => SP.bind (SP.lift _) fun _ => SP.bind (h1 _ _ _ _) fun _ => SP.bind (SP.need _) fun _ =>
          SP.bind (SP.lift _) fun _ => SP.bind (SP.lift _) fun _ => SP.bind (h1 _ _ _ _) fun _ => by sims
    | weight => sims
    | other => sims

end

/-! ### networks -/

mutual
theorem Net.insens : {s s' : List Nat} → {n k p : Nat} → (N : Net s n s' k p) → q ∉ N.ids → Insens q N.mod
  | _, _, _, _, _, .linear _ _ _ _ _ _ _, _ => by simp only [Net.mod]; exact insens_pure (fun s t h => by simp only [h]) _ _ _
  | _, _, _, _, _, .act _ _ _ _ _ _, _ => by simp only [Net.mod]; exact insens_pure (fun s t h => rfl) _ _ _
  | _, _, _, _, _, .flatten _ _ _ _ _, _ => by simp only [Net.mod]; exact insens_pure (fun s t h => rfl) _ _ _
  | _, _, _, _, _, .reshape _ _ _ _ _ _ _ _ _, _ => by simp only [Net.mod]; exact insens_pure (fun s t h => rfl) _ _ _
  | _, _, _, _, _, .l2norm _ _ _ _ _ _ _, _ => by simp only [Net.mod]; exact insens_pure (fun s t h => rfl) _ _ _
  | _, _, _, _, _, .conv _ _ _ _, _ => by simp only [Net.mod]; exact insens_pure (fun s t h => by simp only [h]) _ _ _
  | _, _, _, _, _, .upsample _ _ _ _ _ _ _ _ _, _ => by simp only [Net.mod]; exact insens_pure (fun s t h => rfl) _ _ _
  | _, _, _, _, _, .maxpool _ _, _ => by simp only [Net.mod]; exact insens_pool _ _
  | _, _, _, _, _, .seq id c, h => by
    simp only [Net.mod]
    simp only [Net.ids, List.mem_cons, not_or] at h
    exact insens_seq (c.insens h.2) (Ne.symm h.1)
  | _, _, _, _, _, .skip id fid ch, h => by
    simp only [Net.mod]
    simp only [Net.ids, List.mem_cons, not_or] at h
    exact insens_skip (insens_seq (ch.insens h.2.2) (Ne.symm h.2.1)) id
theorem Chain.insens : {s s' : List Nat} → {n k p l : Nat} → (c : Chain s n s' k p l) → q ∉ c.ids → ∀ m ∈ c.mods, Insens q m
  | _, _, _, _, _, _, .nil _ _ _ _, _ => by simp only [Chain.mods]; simp
  | _, _, _, _, _, _, .snoc c m, h => by
    simp only [Chain.ids, List.mem_append, not_or] at h
    simp only [Chain.mods, List.mem_append, List.mem_singleton]
    rintro m' (h' | rfl)
    · exact c.insens h.1 m' h'
    · exact m.insens h.2
end

end NNJ
