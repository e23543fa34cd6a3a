import Verif.Proofs.Twin
import Verif.Proofs.Build
import Verif.Spec.Hooks

/-! Sequential with `add_hooks=False`. -/

namespace NNJ
open Tensor

variable {q : Nat} {ms : List (Mod ℝ)}

/-- a state without hooks of `q` has a twin -/
theorem Unhooked.twin {t : Store ℝ} (h : Unhooked q t) : Twin q { t with fmaps := fun j => if j = q then some [] else t.fmaps j } t :=
  ⟨rfl, rfl, fun i hi => by simp [hi], by simp, h.attr, fun i => List.filter_eq_self.2 fun j hj => by
    have := h.hooks i
    simp only [ne_eq, decide_not, Bool.not_eq_eq_eq_not, Bool.not_true, decide_eq_false_iff_not]
    rintro rfl
    exact this hj⟩

theorem Twin.unhooked {s t : Store ℝ} (h : Twin q s t) : Unhooked q t := ⟨h.none, fun j hj => by
  rw [← h.hooks j] at hj
  simp at hj⟩

theorem SP2.unhooked {β : Type} {p p' : Prog ℝ β} (h : SP2 q p p') {t : Store ℝ} (ht : Unhooked q t) : Unhooked q (p' t).2 :=
  (h _ _ ht.twin).2.unhooked

theorem sp_forward_hooks (h : ∀ m ∈ ms, Insens q m) (x : Tensor ℝ) : SP2 q (Sequential.forward q true ms x) (Sequential.forward q false ms x) := by
  intro s t ht
  have e1 : Sequential.forward q true ms x s = Sequential.run ms x { s with fmaps := fun j => if j = q then some [x] else s.fmaps j } := rfl
  have e2 : Sequential.forward q false ms x t = Sequential.run ms x t := rfl
  rw [e1, e2]
  refine sp_run h x _ _ ⟨ht.param, ht.pidx, fun j hj => ?_, by simp, ht.none, ht.hooks⟩
  simpa [hj] using ht.fmaps j hj

theorem sp_jvp_hooks (h : ∀ m ∈ ms, Insens q m) (x : Tensor ℝ) (v : Option (Tensor ℝ)) (u : Tensor ℝ) (w : Wrt) : SP q (Sequential.jvp ms x v u w) := by
  simp only [Sequential.jvp]
  refine SP.bind (SP.assert _) fun _ => ?_
  cases w with
  | input => exact SP.bind (sp_jvpInput h _ _) fun _ => SP.pure _
  | weight => exact SP.bind (sp_jvpWeight h _ _ _ _) fun _ => SP.bind (SP.assert _) fun _ => SP.pure _
  | other => exact SP.pure _

theorem sp_jmp_hooks (h : ∀ m ∈ ms, Insens q m) (x : Tensor ℝ) (v : Option (Tensor ℝ)) (u : Tensor ℝ) (w : Wrt) :
    SP2 q (Sequential.jmp q true ms x v (some u) w) (Sequential.jmp q false ms x v (some u) w) := by
  simp only [Sequential.jmp]
  refine SP.bind2 (SP.assert _) fun _ => ?_
  cases w with
  | input => exact SP.bind (sp_jmpInput h _ _) fun _ => SP.pure _
  | weight => exact SP.bind (sp_jmpWeight h _ _ _ _) fun _ => SP.bind (SP.assert _) fun _ => SP.pure _
  | other => exact SP.pure _

/-- forward-mode calls do not notice the difference -/
theorem sp_forwardMode (h : ∀ m ∈ ms, Insens q m) (x : Tensor ℝ) (val : Option (Tensor ℝ)) (c : Call) (hc : c.ForwardMode) :
    SP2 q (c.run (Sequential.mod q true ms) x val) (c.run (Sequential.mod q false ms) x val) := by
  cases c with
  | forward => exact SP.bind2 (sp_forward_hooks h x) fun _ => SP.pure _
  | jvp u w => exact SP.bind2 (sp_jvp_hooks h x val u w) fun _ => SP.pure _
  | jmp u w =>
    cases u with
    | none => exact hc.elim
    | some u => exact SP.bind2 (sp_jmp_hooks h x val u w) fun _ => SP.pure _
  | _ => exact hc.elim

theorem results_twin (h : ∀ m ∈ ms, Insens q m) (cs : List (Tensor ℝ × Option (Tensor ℝ) × Call)) (hc : ∀ c ∈ cs, c.2.2.ForwardMode) {s t : Store ℝ}
    (ht : Twin q s t) : results (Sequential.mod q true ms) cs s = results (Sequential.mod q false ms) cs t := by
  induction cs generalizing s t with
  | nil => rfl
  | cons c cs ih =>
    obtain ⟨x, val, c⟩ := c
    obtain ⟨h1, h2⟩ := sp_forwardMode h x val c (hc (x, val, c) (by simp)) s t ht
    simp only [results]
    rw [h1, ih (fun c hc' => hc c (by simp [hc'])) h2]

theorem register_filter (ms : List (Mod ℝ)) (hk : Nat → List Nat) (i : Nat) : (Sequential.register q ms hk i).filter (· ≠ q) = (hk i).filter (· ≠ q) := by
  induction ms generalizing hk with
  | nil => rfl
  | cons m ms ih =>
    rw [Sequential.register, ih]
    split <;> simp

/-- the states after the two constructors are twins -/
theorem init_twin (ms : List (Mod ℝ)) {st : Store ℝ} (h : NoHookOf q st) :
    Twin q (Sequential.init q ms true st).2 (Sequential.init q ms false st).2 := by
  refine ⟨rfl, rfl, fun i hi => ?_, ?_, ?_, fun i => ?_⟩
  · show (if i = q then _ else _) = (if i = q then _ else _)
    simp [hi]
  · show Option.isSome (if q = q then _ else _) = true
    simp
  · show (if q = q then none else _) = none
    simp
  · show (Sequential.register q ms st.hooks i).filter (· ≠ q) = st.hooks i
    rw [register_filter]
    exact List.filter_eq_self.2 fun j hj => by
      simp only [ne_eq, decide_not, Bool.not_eq_eq_eq_not, Bool.not_true, decide_eq_false_iff_not]
      rintro rfl
      exact h i hj

/-! ### backward passes -/

/-- `p` started without the attribute raises AttributeError, leaving the state alone -/
def NoAttr {β : Type} (q : Nat) (p : Prog ℝ β) : Prop := ∀ s, s.fmaps q = none → p s = (.error .attribute, s)

theorem NoAttr.bind {β γ : Type} {p : Prog ℝ β} {f : β → Prog ℝ γ} (h : NoAttr q p) : NoAttr q (p >>= f) := fun s hs => by
  rw [Prog.bind_run, h s hs]

theorem noAttr_fmap (k : Nat) : NoAttr q (Sequential.fmap q k : Prog ℝ (Tensor ℝ)) := fun s hs => by simp only [Sequential.fmap, hs]

theorem noAttr_child {β : Type} {k : Nat} (hk : k < ms.length) {f : Mod ℝ → Prog ℝ β} (h : ∀ m, NoAttr q (f m)) :
    NoAttr q (Sequential.child ms k >>= f) := fun s hs => by
  rw [Prog.bind_run]
  simp only [Sequential.child, List.getElem?_eq_getElem hk]
  exact h _ s hs

variable {k : Nat}

theorem noAttr_vjpInput (hk : k < ms.length) (v : Tensor ℝ) : NoAttr q (Sequential.vjpInput q ms (k + 1) v) :=
  noAttr_child hk fun _ => (noAttr_fmap _).bind
theorem noAttr_vjpWeight (hk : k < ms.length) (v : Tensor ℝ) (vs : List (Tensor ℝ)) : NoAttr q (Sequential.vjpWeight q ms (k + 1) v vs) :=
  noAttr_child hk fun _ => (noAttr_fmap _).bind
theorem noAttr_mjpInput (hk : k < ms.length) (v : Tensor ℝ) : NoAttr q (Sequential.mjpInput q ms (k + 1) v) :=
  noAttr_child hk fun _ => (noAttr_fmap _).bind
theorem noAttr_mjpWeight (hk : k < ms.length) (v : Tensor ℝ) (vs : List (Tensor ℝ)) : NoAttr q (Sequential.mjpWeight q ms (k + 1) v vs) :=
  noAttr_child hk fun _ => (noAttr_fmap _).bind
theorem noAttr_jTmjpInput (hk : k < ms.length) (n : Nat) (a b c : Bool) (v : Option (Tensor ℝ)) : NoAttr q (Sequential.jTmjpInput q n ms a b c (k + 1) v) :=
  noAttr_child hk fun _ => (noAttr_fmap _).bind
theorem noAttr_jTmjpWeight (hk : k < ms.length) (n : Nat) (a b c : Bool) (v : Option (Tensor ℝ)) (vs : List (PyVal ℝ)) :
    NoAttr q (Sequential.jTmjpWeight q n ms a b c (k + 1) v vs) :=
  noAttr_child hk fun _ => (noAttr_fmap _).bind
theorem noAttr_jmjTpInput (h : ms ≠ []) (n : Nat) (a b c : Bool) (v : PyVal ℝ) : NoAttr q (Sequential.jmjTpInput q n a b c ms k v) := by
  cases ms with
  | nil => exact (h rfl).elim
  | cons m ms => exact (noAttr_fmap _).bind

/-- `if val is None: val = self.forward(x)` keeps the state free of hooks, or raises -/
theorem getVal_unhooked (h : ∀ m ∈ ms, Insens q m) (x : Tensor ℝ) (val : Option (Tensor ℝ)) {t : Store ℝ} (ht : Unhooked q t) :
    Unhooked q (Sequential.getVal q false ms x val t).2 := by
  cases val with
  | none => exact (sp_forward_hooks h x).unhooked ht
  | some v => exact ht

/-- the shape of all backward methods: `val` is computed if necessary, then `f val` -/
theorem after_getVal {β : Type} (h : ∀ m ∈ ms, Insens q m) (x : Tensor ℝ) (val : Option (Tensor ℝ)) {t : Store ℝ} (ht : Unhooked q t)
    {f : Tensor ℝ → Prog ℝ β} (hf : ∀ v s, s.fmaps q = none → ∃ e, f v s = (.error e, s)) :
    (∃ e, ((Sequential.getVal q false ms x val >>= f) t).1 = .error e) ∧ Unhooked q ((Sequential.getVal q false ms x val >>= f) t).2 := by
  have hu := getVal_unhooked h x val ht
  rw [Prog.bind_run]
  rcases hg : Sequential.getVal q false ms x val t with ⟨r, s'⟩
  rw [hg] at hu
  cases r with
  | error e => exact ⟨⟨e, rfl⟩, hu⟩
  | ok v =>
    obtain ⟨e, he⟩ := hf v s' hu.attr
    simp only [he]
    exact ⟨⟨e, rfl⟩, hu⟩

/-- the same, knowing that `val` is given or `forward` returns -/
theorem after_getVal_attr {β : Type} (h : ∀ m ∈ ms, Insens q m) (x : Tensor ℝ) (val : Option (Tensor ℝ)) {t : Store ℝ} (ht : Unhooked q t)
    {f : Tensor ℝ → Prog ℝ β} {v : Tensor ℝ} (hv : val = some v ∨ val = none ∧ Returns ((Sequential.mod q false ms).forward x) t v)
    (hf : NoAttr q (f v)) :
    ((Sequential.getVal q false ms x val >>= f) t).1 = .error .attribute := by
  have hu := getVal_unhooked h x val ht
  have hr : (Sequential.getVal q false ms x val t).1 = .ok v := by
    rcases hv with rfl | ⟨rfl, hv⟩
    · rfl
    · exact hv
  rw [Prog.bind_run]
  rcases hg : Sequential.getVal q false ms x val t with ⟨r, s'⟩
  rw [hg] at hu hr
  replace hr : r = .ok v := hr
  subst hr
  simp only [hf s' hu.attr]

/-- stops with an exception, leaving the state alone, when there is no attribute -/
def Stops {β : Type} (q : Nat) (p : Prog ℝ β) : Prop := ∀ s, s.fmaps q = none → ∃ e, p s = (.error e, s)

theorem NoAttr.stops {β : Type} {p : Prog ℝ β} (h : NoAttr q p) : Stops q p := fun s hs => ⟨_, h s hs⟩
theorem Stops.bind {β γ : Type} {p : Prog ℝ β} {f : β → Prog ℝ γ} (h : Stops q p) : Stops q (p >>= f) := fun s hs => by
  obtain ⟨e, he⟩ := h s hs
  exact ⟨e, by rw [Prog.bind_run, he]⟩
theorem Stops.lift {β γ : Type} (r : Res β) {f : β → Prog ℝ γ} (h : ∀ b, Stops q (f b)) : Stops q ((liftM r : Prog ℝ β) >>= f) := fun s hs => by
  cases r with
  | error e => exact ⟨e, rfl⟩
  | ok b => exact h b s hs
theorem NoAttr.lift {β γ : Type} (b : β) {f : β → Prog ℝ γ} (h : NoAttr q (f b)) : NoAttr q ((liftM (Except.ok b : Res β) : Prog ℝ β) >>= f) := h

/-- what one call does in a state without hooks: it raises (`.1`); if its arguments pass the assertions and `val` is given or
computed, and is not a 0-dimensional tensor, it raises AttributeError (`.2.1`); the state stays free of hooks (`.2.2`) -/
def Fails {β : Type} (q : Nat) (ms : List (Mod ℝ)) (x : Tensor ℝ) (val : Option (Tensor ℝ)) (t : Store ℝ) (ok : Prop) (p : Prog ℝ β) : Prop :=
  (∃ e, (p t).1 = .error e) ∧
  (ok → ∀ v, (val = some v ∨ val = none ∧ Returns ((Sequential.mod q false ms).forward x) t v) → v.shape ≠ [] → (p t).1 = .error .attribute) ∧
  Unhooked q (p t).2

section
variable {x : Tensor ℝ} {val : Option (Tensor ℝ)} {t : Store ℝ} {ok : Prop}

theorem Fails.bind {β γ : Type} {p : Prog ℝ β} {f : β → Prog ℝ γ} (h : Fails q ms x val t ok p) : Fails q ms x val t ok (p >>= f) := by
  obtain ⟨⟨e, he⟩, h2, h3⟩ := h
  rcases hp : p t with ⟨r, s'⟩
  rw [hp] at he h3
  replace he : r = .error e := he
  subst he
  have : (p >>= f) t = (.error e, s') := by rw [Prog.bind_run, hp]
  rw [Fails, this]
  refine ⟨⟨e, rfl⟩, fun h0 v hv hs => ?_, h3⟩
  have := h2 h0 v hv hs
  rw [hp] at this
  cases this
  rfl

theorem Fails.assert {β : Type} {c : Bool} {f : Unit → Prog ℝ β} (hc : ok → c = true) (ht : Unhooked q t) (h : Fails q ms x val t ok (f ())) :
    Fails q ms x val t ok (Prog.assert c >>= f) := by
  cases c with
  | true => exact h
  | false => exact ⟨⟨_, rfl⟩, fun h0 => by simpa using hc h0, ht⟩

theorem Fails.getVal {β : Type} (hms : ∀ m ∈ ms, Insens q m) (ht : Unhooked q t) {f : Tensor ℝ → Prog ℝ β} (hs : ∀ v, Stops q (f v))
    (hf : ok → ∀ v, v.shape ≠ [] → NoAttr q (f v)) : Fails q ms x val t ok (Sequential.getVal q false ms x val >>= f) := by
  obtain ⟨h1, h2⟩ := after_getVal hms x val ht fun v => hs v
  exact ⟨h1, fun h0 v hv hv' => after_getVal_attr hms x val ht hv (hf h0 v hv'), h2⟩

end

theorem eyeFor_ok {v : Tensor ℝ} (h : v.shape ≠ []) : ∃ I, Sequential.eyeFor v = .ok I := by
  simp only [Sequential.eyeFor]
  split
  · rename_i h'; exact (h h').elim
  · exact ⟨_, rfl⟩

theorem fails_mjp (hms : ∀ m ∈ ms, Insens q m) (hne : ms ≠ []) {t : Store ℝ} (ht : Unhooked q t) (x : Tensor ℝ) (val M : Option (Tensor ℝ)) (w : Wrt) :
    Fails q ms x val t (w = .input ∨ w = .weight) (Sequential.mjp q false ms x val M w) := by
  obtain ⟨k, hk⟩ : ∃ k, ms.length = k + 1 := ⟨ms.length - 1, by have := List.length_pos_iff.2 hne; omega⟩
  have hlt : k < ms.length := by omega
  simp only [Sequential.mjp, hk]
  cases w with
  | other => exact ⟨⟨_, rfl⟩, fun h => by simp at h, ht⟩
  | input =>
    refine Fails.assert (by simp) ht ?_
    refine Fails.getVal hms ht (fun v => Stops.lift _ fun A => (noAttr_mjpInput hlt A).stops.bind) fun _ v hv => ?_
    cases M with
    | some M => exact NoAttr.lift _ (noAttr_mjpInput hlt M).bind
    | none =>
      obtain ⟨I, hI⟩ := eyeFor_ok hv
      simp only [hI]
      exact NoAttr.lift _ (noAttr_mjpInput hlt I).bind
  | weight =>
    refine Fails.assert (by simp) ht ?_
    refine Fails.getVal hms ht (fun v => Stops.lift _ fun A => (noAttr_mjpWeight hlt A _).stops.bind) fun _ v hv => ?_
    cases M with
    | some M => exact NoAttr.lift _ (noAttr_mjpWeight hlt M _).bind
    | none =>
      obtain ⟨I, hI⟩ := eyeFor_ok hv
      simp only [hI]
      exact NoAttr.lift _ (noAttr_mjpWeight hlt I _).bind

theorem fails_vjp (hms : ∀ m ∈ ms, Insens q m) (hne : ms ≠ []) {t : Store ℝ} (ht : Unhooked q t) (x : Tensor ℝ) (val : Option (Tensor ℝ)) (u : Tensor ℝ) (w : Wrt) :
    Fails q ms x val t (w = .input ∨ w = .weight) (Sequential.vjp q false ms x val u w) := by
  obtain ⟨k, hk⟩ : ∃ k, ms.length = k + 1 := ⟨ms.length - 1, by have := List.length_pos_iff.2 hne; omega⟩
  have hlt : k < ms.length := by omega
  simp only [Sequential.vjp, hk]
  cases w with
  | other => exact ⟨⟨_, rfl⟩, fun h => by simp at h, ht⟩
  | input => exact Fails.assert (by simp) ht <| Fails.getVal hms ht (fun v => (noAttr_vjpInput hlt u).stops.bind) fun _ v hv => (noAttr_vjpInput hlt u).bind
  | weight => exact Fails.assert (by simp) ht <| Fails.getVal hms ht (fun v => (noAttr_vjpWeight hlt u _).stops.bind) fun _ v hv => (noAttr_vjpWeight hlt u _).bind

theorem fails_jTmjp (hms : ∀ m ∈ ms, Insens q m) (hne : ms ≠ []) {t : Store ℝ} (ht : Unhooked q t) (x : Tensor ℝ) (val M : Option (Tensor ℝ)) (w : Wrt)
    (fd td db : Bool) : Fails q ms x val t (db → fd ∧ td) (Sequential.jTmjp q false ms x val M w fd td db) := by
  obtain ⟨k, hk⟩ : ∃ k, ms.length = k + 1 := ⟨ms.length - 1, by have := List.length_pos_iff.2 hne; omega⟩
  have hlt : k < ms.length := by omega
  simp only [Sequential.jTmjp, hk]
  refine Fails.assert (by cases db <;> cases fd <;> cases td <;> simp) ht ?_
  have hloop : ∀ (A : Tensor ℝ) (fd : Bool), NoAttr q (match w with
      | .input => do
        let r ← Sequential.jTmjpInput q (k + 1) ms fd td db (k + 1) (some A)
        pure (PyVal.ofOption r)
      | .weight => do
        let acc ← Sequential.jTmjpWeight q (k + 1) ms fd td db (k + 1) (some A) []
        if acc.length = 0 then pure .none
        else if td then do
          let ts ← (acc.mapM PyVal.toTensor : Res _)
          let r ← (Tensor.cat 1 ts : Res _)
          pure (.tensor r)
        else pure (.list acc)
      | .other => do
        let _ ← Sequential.jTmjpInput q (k + 1) ms fd td db (k + 1) (some A)
        pure .none : Prog ℝ (PyVal ℝ)) := by
    intro A fd
    cases w with
    | input => exact (noAttr_jTmjpInput hlt _ _ _ _ _).bind
    | weight => exact (noAttr_jTmjpWeight hlt _ _ _ _ _ _).bind
    | other => exact (noAttr_jTmjpInput hlt _ _ _ _ _).bind
  refine Fails.getVal hms ht (fun v => Stops.lift _ fun A => ?_) fun _ v hv => ?_
  · exact (hloop A.1 A.2).stops
  · cases M with
    | some M => exact NoAttr.lift _ (hloop M fd)
    | none =>
      cases hs : v.shape with
      | nil => exact (hv hs).elim
      | cons b s =>
        exact NoAttr.lift _ (hloop _ true)

theorem fails_jmjTp (hms : ∀ m ∈ ms, Insens q m) (hne : ms ≠ []) {t : Store ℝ} (ht : Unhooked q t) (x : Tensor ℝ) (val : Option (Tensor ℝ)) (M : PyVal ℝ)
    (fd td db : Bool) : Fails q ms x val t (db → fd ∧ td) (Sequential.jmjTp q false ms x val M .input fd td db) := by
  simp only [Sequential.jmjTp]
  refine Fails.assert (by cases db <;> cases fd <;> cases td <;> simp) ht ?_
  exact Fails.getVal hms ht (fun v => (noAttr_jmjTpInput hne _ _ _ _ _).stops.bind) fun _ v hv => (noAttr_jmjTpInput hne _ _ _ _ _).bind

theorem fails_call (hms : ∀ m ∈ ms, Insens q m) (hne : ms ≠ []) {t : Store ℝ} (ht : Unhooked q t) (x : Tensor ℝ) (val : Option (Tensor ℝ)) (c : Call)
    (hc : c.NeedsMaps) : Fails q ms x val t c.PassesAsserts (c.run (Sequential.mod q false ms) x val) := by
  cases c with
  | jacobian w => exact (fails_mjp hms hne ht x val none w).bind
  | vjp u w => exact (fails_vjp hms hne ht x val u w).bind
  | mjp M w => exact (fails_mjp hms hne ht x val M w).bind
  | jTmjp M w fd td db => exact fails_jTmjp hms hne ht x val M w fd td db
  | jmp M w =>
    cases M with
    | some M => exact hc.elim
    | none =>
      refine Fails.bind ?_
      show Fails q ms x val t (w = .input ∨ w = .weight) (Sequential.jmp q false ms x val none w)
      simp only [Sequential.jmp]
      exact Fails.assert (by simp) ht (fails_mjp hms hne ht x val none w)
  | jmjTp M w fd td db =>
    cases w with
    | input => exact (fails_jmjTp hms hne ht x val M fd td db).bind
    | _ => exact hc.elim
  | _ => exact hc.elim

end NNJ
