import Verif.Proofs.NoneNet
import Verif.Proofs.NetFacts
import Verif.Spec.NoneMatrix

/-!
`matrix=None` in `mjp`, `jmp`, `jTmjp`, `jmjTp`.
-/

namespace NNJ
open Tensor

theorem onesLike_flat {v : Tensor ℝ} {B k : Nat} {s' : List Nat} (hv : v.shape = B :: s') (hk : size s' = k) (hB : 0 < B) :
    (onesLike v).reshapeInfer [B] [] = .ok (ones [B, k]) := by
  have h1 : size (B :: s') % (size [B] * size []) = 0 := by simp [size]
  have h2 : size (B :: s') / (size [B] * size []) = k := by simp [size, hk, Nat.mul_div_cancel_left k hB]
  have h0 : size [B] * size [] ≠ 0 := by simp [size]; omega
  simp only [onesLike, ones, full, reshapeInfer, numel, hv, h1, h2, if_neg h0, if_true, List.singleton_append]

variable {s s' : List Nat} {n k p : Nat}

theorem ones_reshape {t t' q : List Nat} (h : size t = size q) (h' : size t' = size q) :
    (ones t : Tensor ℝ).reshape q = (ones t' : Tensor ℝ).reshape q := by
  simp [Tensor.reshape, ones, full, numel, h, h']

theorem diag_jTmjp_none {fwd : Tensor ℝ → Res (Tensor ℝ)} {jac : AbstractDiagonal.Jac ℝ} {x v : Tensor ℝ} {B : Nat} (hd : x.dim 0 = .ok B)
    (hf : fwd x = .ok v) (ho : (onesLike v).reshapeInfer [B] [] = .ok (ones [B, k])) (wrt : Wrt) (fd td db : Bool) :
    AbstractDiagonal.jTmjp fwd jac x none none wrt fd td db = AbstractDiagonal.jTmjp fwd jac x none (some (ones [B, k])) wrt true td db := by
  simp only [AbstractDiagonal.jTmjp, hd, hf, ho, bind, Except.bind, pure, Except.pure]

theorem resh_jTmjp_none {fwd : Tensor ℝ → Res (Tensor ℝ)} {x v : Tensor ℝ} {B : Nat} (hd : x.dim 0 = .ok B)
    (hf : fwd x = .ok v) (ho : (onesLike v).reshapeInfer [B] [] = .ok (ones [B, k])) (wrt : Wrt) (fd td db : Bool) :
    Resh.jTmjp fwd x none none wrt fd td db = Resh.jTmjp fwd x none (some (ones [B, k])) wrt true td db := by
  simp only [Resh.jTmjp, hd, hf, ho, bind, Except.bind, pure, Except.pure]

theorem conv_jTmjp_none {cfg : Conv2d.Cfg} {W : Tensor ℝ} {b : Option (Tensor ℝ)} {x v : Tensor ℝ} {B c1 h1 w1 c2 h2 w2 : Nat}
    (hx : x.shape = [B, c1, h1, w1]) (hv : v.shape = [B, c2, h2, w2]) (hf : Conv2d.forward cfg W b x = .ok v) (wrt : Wrt) (fd db : Bool) :
    Conv2d.jTmjp cfg W b x none none wrt fd true db = Conv2d.jTmjp cfg W b x none (some (ones [B, c2 * h2 * w2])) wrt true true db := by
  have hx4 : x.dims4 = .ok (B, c1, h1, w1) := by simp [Tensor.dims4, hx]
  have hv4 : v.dims4 = .ok (B, c2, h2, w2) := by simp [Tensor.dims4, hv]
  have e1 : (onesLike v).reshape [B, c2, h2, w2] = (ones [B, c2 * h2 * w2]).reshape [B, c2, h2, w2] := by
    rw [onesLike, hv]; exact ones_reshape rfl (by simp [size, Nat.mul_assoc])
  have e2 : (onesLike v).reshape [B, c2, h2 * w2] = (ones [B, c2 * h2 * w2]).reshape [B, c2, h2 * w2] := by
    rw [onesLike, hv]; exact ones_reshape (by simp [size]) (by simp [size, Nat.mul_assoc])
  cases wrt with
  | input => 
    simp only [Conv2d.jTmjp, Conv2d.getVal, hf, Conv2d.jTmjpInputDiag, hx4, hv4, bind, Except.bind, e1]
  | weight =>
    simp only [Conv2d.jTmjp, Conv2d.getVal, hf, Conv2d.jTmjpWeightDiag, hx4, hv4, bind, Except.bind, e1, e2]
  | other => rfl

theorem upsample_jTmjp_none {f : Upsample.Scale} {x v : Tensor ℝ} {B c1 h1 w1 : Nat}
    (hx : x.shape = [B, c1, h1, w1]) (hf : Upsample.forward f x = .ok v) (ho : (onesLike v).reshapeInfer [B] [] = .ok (ones [B, k])) (wrt : Wrt)
    (fd td db : Bool) :
    Upsample.jTmjp f x none none wrt fd td db = Upsample.jTmjp f x none (some (ones [B, k])) wrt true td db := by
  have hx4 : x.dims4 = .ok (B, c1, h1, w1) := by simp [Tensor.dims4, hx]
  simp only [Upsample.jTmjp, Upsample.getVal, hf, ho, hx4, bind, Except.bind, pure, Except.pure]

theorem maxpool_jTmjp_none {id : Nat} {a : Torch.PoolArgs} {x v : Tensor ℝ} {B c1 h1 w1 : Nat} {st st' : Store ℝ}
    (hx : x.shape = [B, c1, h1, w1]) (hf : MaxPool2d.forward id a x st = (.ok v, st')) (ho : (onesLike v).reshapeInfer [B] [] = .ok (ones [B, k]))
    (wrt : Wrt) (fd td db : Bool) :
    MaxPool2d.jTmjp id a x none none wrt fd td db st = MaxPool2d.jTmjp id a x none (some (ones [B, k])) wrt true td db st := by
  have hx4 : x.dims4 = .ok (B, c1, h1, w1) := by simp [Tensor.dims4, hx]
  refine (Prog.bind_ok (p := MaxPool2d.getVal id a x none) (s := st) hf).trans ((Prog.bind_ok (p := MaxPool2d.getVal id a x none) (s := st) hf).trans ?_).symm
  refine (Prog.bind_ok (p := liftM x.dims4) (s := st') (s' := st') (b := (B, c1, h1, w1)) (by rw [hx4]; rfl)).trans
    ((Prog.bind_ok (p := liftM x.dims4) (s := st') (s' := st') (b := (B, c1, h1, w1)) (by rw [hx4]; rfl)).trans ?_).symm
  simp only [ho]
  rfl

theorem seq_jTmjp_none {id : Nat} {ms : List (Mod ℝ)} {x v : Tensor ℝ} {B : Nat} {st st' : Store ℝ} {s' : List Nat}
    (hf : Sequential.forward id true ms x st = (.ok v, st')) (hv : v.shape = B :: s') (hk : size s' = k)
    {wrt : Wrt} {fd td db : Bool} (hdb : db = true → fd = true) :
    Sequential.jTmjp id true ms x none none wrt fd td db st = Sequential.jTmjp id true ms x none (some (ones [B, k])) wrt true td db st := by
  have ha : ((!db) || (db && fd && td)) = ((!db) || (db && true && td)) := by cases db <;> simp_all
  simp only [Sequential.jTmjp]
  rw [ha]
  rcases hdb' : ((!db) || (db && true && td)) with _ | _
  · rfl
  refine (Prog.bind_ok (p := Sequential.getVal id true ms x none) (s := st) hf).trans
    ((Prog.bind_ok (p := Sequential.getVal id true ms x none) (s := st) hf).trans ?_).symm
  simp only [hv, hk]

theorem skip_jTmjp_none {F : Mod ℝ} {x v : Tensor ℝ} {B : Nat} {st st' : Store ℝ} 
    (hf : SkipConnection.forward F x st = (.ok v, st')) (hv : v.shape = [B, k])
    {wrt : Wrt} {fd td db : Bool} (hdb : db = true → fd = true) :
    SkipConnection.jTmjp F x none none wrt fd td db st = SkipConnection.jTmjp F x none (some (ones [B, k])) wrt true td db st := by
  have ha : ((!db) || (db && fd && td)) = ((!db) || (db && true && td)) := by cases db <;> simp_all
  have ho : onesLike v = ones [B, k] := by simp [onesLike, hv]
  simp only [SkipConnection.jTmjp]
  rw [ha]
  rcases hdb' : ((!db) || (db && true && td)) with _ | _
  · rfl
  refine (Prog.bind_ok (p := SkipConnection.getVal F x none) (s := st) hf).trans
    ((Prog.bind_ok (p := SkipConnection.getVal F x none) (s := st) hf).trans ?_).symm
  simp only [ho]

theorem Act.isDefaults (a : Act) : ∃ fwd jac, a.layer = AbstractDiagonal.defaults fwd jac := by
  cases a <;> exact ⟨_, _, rfl⟩

/-- `jTmjp` with `None` is `jTmjp` with the diagonal metric 1 -/
theorem Net.jTmjp_none (N : Net s n s' k p) {wrt : Wrt} {fd td db : Bool} (hN : N.NoneIsIdentity td) (hdb : db = true → fd = true)
    {st : Store ℝ} {x v : Tensor ℝ} {B : Nat} (hB : 0 < B) (hx : x.shape = B :: s) (hv : v.shape = B :: s')
    (hf : (N.mod.forward x st).1 = .ok v) :
    N.mod.jTmjp x none none wrt fd td db st = N.mod.jTmjp x none (some (ones [B, k])) wrt true td db st := by
  have hk : size s' = k := N.sizes.2.1
  have hd : x.dim 0 = .ok B := by simp [Tensor.dim, hx]
  have ho := onesLike_flat hv hk hB
  cases N with
  | linear id wId bId i o hi hoo =>
    have hf' : Linear.forward (st.param wId) (bId.map st.param) x = .ok v := hf
    have hv' : onesLike v = ones [B, k] := by simp [onesLike, hv]
    have : ∀ M fd, Linear.jTmjp (st.param wId) (bId.map st.param) x none M wrt fd td db =
        Linear.jTmjp (st.param wId) (bId.map st.param) x (some v) M wrt fd td db := fun M fd => by
      simp only [Linear.jTmjp, Linear.getVal, hf']
    have h2 : Linear.jTmjp (st.param wId) (bId.map st.param) x (some v) none wrt fd td db =
        Linear.jTmjp (st.param wId) (bId.map st.param) x (some v) (some (ones [B, k])) wrt true td db := by
      rw [← hv']; rfl
    exact congrArg (fun r => ((r >>= fun r => pure (PyVal.ofOption r) : Res (PyVal ℝ)), st)) (((this _ _).trans h2).trans (this _ _).symm)
  | act a id s n hs hn =>
    obtain ⟨fwd, jac, hl⟩ := a.isDefaults
    have hf' : fwd x = .ok v := (congrArg (fun L : PureLayer ℝ => L.forward x) hl).symm.trans hf
    have key : a.layer.jTmjp x none none wrt fd td db = a.layer.jTmjp x none (some (ones [B, n])) wrt true td db := by
      rw [hl]; exact diag_jTmjp_none hd hf' ho wrt fd td db
    exact congrArg (fun r => ((r >>= fun r => pure (PyVal.ofOption r) : Res (PyVal ℝ)), st)) key
  | flatten id s n hs hn =>
    exact congrArg (fun r => ((r >>= fun r => pure (PyVal.ofOption r) : Res (PyVal ℝ)), st)) (resh_jTmjp_none hd hf ho wrt fd td db)
  | reshape id s dims n hs hd' hn =>
    exact congrArg (fun r => ((r >>= fun r => pure (PyVal.ofOption r) : Res (PyVal ℝ)), st)) (resh_jTmjp_none hd hf ho wrt fd td db)
  | l2norm id eps s n hs hr hn => exact hN.elim
  | conv id wId bId g =>
    cases (show td = true from hN)
    exact congrArg (fun r => ((r >>= fun r => pure (PyVal.ofOption r) : Res (PyVal ℝ)), st)) (conv_jTmjp_none hx hv hf wrt fd db)
  | upsample id c h w r hc hh hw hr =>
    exact congrArg (fun r => ((r >>= fun r => pure (PyVal.ofOption r) : Res (PyVal ℝ)), st)) (upsample_jTmjp_none hx hf ho wrt fd td db)
  | maxpool id g =>
    rcases hr : (Net.maxpool id g).mod.forward x st with ⟨r, st'⟩
    rw [hr] at hf
    cases hf
    exact maxpool_jTmjp_none hx hr ho wrt fd td db
  | seq id c =>
    rcases hr : (Net.seq id c).mod.forward x st with ⟨r, st'⟩
    rw [hr] at hf
    cases hf
    exact seq_jTmjp_none hr hv hk hdb
  | skip id fid ch =>
    rcases hr : (Net.skip id fid ch).mod.forward x st with ⟨r, st'⟩
    rw [hr] at hf
    cases hf
    cases (show _ = [] from hN)
    refine skip_jTmjp_none hr ?_ hdb
    rw [hv, ← hk]; simp [size]


/-! ### `mjp` and `jmp` -/

theorem Net.mjp_none (N : Net s n s' k p) (hN : ¬ N.NoneRaises) (x : Tensor ℝ) (val : Option (Tensor ℝ)) (wrt : Wrt) :
    N.mod.mjp x val none wrt = N.mod.jacobian x val wrt := by
  cases N with
  | linear id wId bId i o hi ho => rfl
  | act a id s n hs hn =>
    obtain ⟨fwd, jac, hl⟩ := a.isDefaults
    refine congrArg (fun L : PureLayer ℝ => fun st : Store ℝ => (L.mjp x val none wrt, st)) hl |>.trans ?_ |>.trans
      (congrArg (fun L : PureLayer ℝ => fun st : Store ℝ => (L.jacobian x val wrt, st)) hl).symm
    rfl
  | flatten id s n hs hn => exact (hN trivial).elim
  | reshape id s dims n hs hd' hn => exact (hN trivial).elim
  | l2norm id eps s n hs hr hn => exact (hN trivial).elim
  | conv id wId bId g =>
    funext st
    refine congrArg (fun r => (r, st)) ?_
    cases val with
    | some v => rfl
    | none =>
      show (Conv2d.forward _ _ _ x >>= _) = (Conv2d.forward _ _ _ x >>= _)
      rcases Conv2d.forward _ _ _ x with e | v <;> rfl
  | upsample id c h w r hc hh hw hr => rfl
  | maxpool id g => rfl
  | seq id c => rfl
  | skip id fid ch => rfl

theorem Net.jmp_none (N : Net s n s' k p) (hN : ¬ N.NoneRaises) (x : Tensor ℝ) (val : Option (Tensor ℝ)) (wrt : Wrt) :
    N.mod.jmp x val none wrt = N.mod.jacobian x val wrt := by
  cases N with
  | linear id wId bId i o hi ho => rfl
  | act a id s n hs hn =>
    obtain ⟨fwd, jac, hl⟩ := a.isDefaults
    refine congrArg (fun L : PureLayer ℝ => fun st : Store ℝ => (L.jmp x val none wrt, st)) hl |>.trans ?_ |>.trans
      (congrArg (fun L : PureLayer ℝ => fun st : Store ℝ => (L.jacobian x val wrt, st)) hl).symm
    rfl
  | flatten id s n hs hn => exact (hN trivial).elim
  | reshape id s dims n hs hd' hn => exact (hN trivial).elim
  | l2norm id eps s n hs hr hn => exact (hN trivial).elim
  | conv id wId bId g => rfl
  | upsample id c h w r hc hh hw hr => rfl
  | maxpool id g => rfl
  | seq id c => cases wrt <;> rfl
  | skip id fid ch => rfl

/-! ### `jmjTp` -/

theorem Net.jmjTp_none_input (N : Net s n s' k p) (hN : N.NoneIsIdentityFwd)
    {fd td db : Bool} (hdb : db = true → fd = true) {B : Nat} {x : Tensor ℝ} (hx : x.shape = B :: s) (hB : 0 < B) (st : Store ℝ) :
    N.mod.jmjTp x none .none .input fd td db st = N.mod.jmjTp x none (.tensor (ones [B, n])) .input true td db st := by
  have hd : x.dim 0 = .ok B := by simp [Tensor.dim, hx]
  have hs0 := N.sizes.1
  have hn0 := N.sizes.2.2.1
  have ho : (onesLike x).reshapeInfer [B] [] = .ok (ones [B, n]) := onesLike_flat hx hs0 hB
  cases N with
  | linear id wId bId i o hi ho' =>
    have h1 : onesLike x = ones [B, n] := by rw [onesLike, hx]
    rw [← h1]
    refine congrArg (fun r => (r, st)) ?_
    rfl
  | act a id s n hs hn =>
    obtain ⟨fwd, jac, hl⟩ := a.isDefaults
    have key : a.layer.jmjTp x none none .input fd td db = a.layer.jmjTp x none (some (ones [B, n])) .input true td db := by
      rw [hl]
      simp only [AbstractDiagonal.defaults, AbstractDiagonal.jmjTp, hd, ho, bind, Except.bind, pure, Except.pure]
    exact congrArg (fun r => (r, st)) key
  | flatten id s n hs hn =>
    refine congrArg (fun r => (r, st)) (show Resh.jmjTp x none none .input fd td db = Resh.jmjTp x none (some (ones [B, n])) .input true td db from ?_)
    simp only [Resh.jmjTp, hd, ho, bind, Except.bind, pure, Except.pure]
  | reshape id s dims n hs hd' hn =>
    refine congrArg (fun r => (r, st)) (show Resh.jmjTp x none none .input fd td db = Resh.jmjTp x none (some (ones [B, n])) .input true td db from ?_)
    simp only [Resh.jmjTp, hd, ho, bind, Except.bind, pure, Except.pure]
  | l2norm id eps s n hs hr hn => exact hN.elim
  | conv id wId bId g => exact hN.elim
  | upsample id c h w r hc hh hw hr => exact hN.elim
  | maxpool id g => exact hN.elim
  | seq id c =>
    obtain ⟨m, hm⟩ : ∃ m, s = [m] := List.length_eq_one_iff.1 hN
    have h1 : onesLike x = ones [B, n] := by rw [onesLike, hx, ← hs0, hm]; simp [size]
    have ha : ((!db) || (db && fd && td)) = ((!db) || (db && true && td)) := by cases db <;> simp_all
    show Sequential.jmjTp id true c.mods x none .none .input fd td db st = Sequential.jmjTp id true c.mods x none (.tensor (ones [B, n])) .input true td db st
    simp only [Sequential.jmjTp]
    rw [ha, h1]
  | skip id fid ch => exact hN.elim

theorem seq_jmjTp_none_weight {id : Nat} {ms : List (Mod ℝ)} (hp : (ms.map Mod.nParams).sum = p)
    {fd td db : Bool} (hdb : db = true → fd = true) {B : Nat} {x : Tensor ℝ} (hd : x.dim 0 = .ok B) (val : Option (Tensor ℝ)) :
    Sequential.jmjTp id true ms x val .none .weight fd td db = Sequential.jmjTp id true ms x val (.tensor (ones [B, p])) .weight true td db := by
  have ha : ((!db) || (db && fd && td)) = ((!db) || (db && true && td)) := by cases db <;> simp_all
  have hp' : Sequential.nParams ms = p := hp
  simp only [Sequential.jmjTp]
  rw [ha, hd, hp']
  rfl

theorem Net.jmjTp_none_weight (N : Net s n s' k p) (hp : 0 < p)
    {fd td db : Bool} (hdb : db = true → fd = true) {B : Nat} {x : Tensor ℝ} (hx : x.shape = B :: s) (val : Option (Tensor ℝ)) (hf : N.PushW) :
    N.mod.jmjTp x val .none .weight fd td db = N.mod.jmjTp x val (.tensor (ones [B, p])) .weight true td db := by
  have hd : x.dim 0 = .ok B := by simp [Tensor.dim, hx]
  have hnp := N.nParams_eq
  cases N with
  | linear id wId bId i o hi ho' =>
    funext st
    refine congrArg (fun r => (r, st)) ?_
    rw [← hnp]
    show Linear.jmjTp _ _ _ x val none .weight fd td db = Linear.jmjTp _ _ _ x val (some (ones [B, _])) .weight true td db
    unfold Linear.jmjTp
    simp only [hd]
    rfl
  | act a id s n hs hn => exact absurd hp (lt_irrefl 0)
  | flatten id s n hs hn => exact absurd hp (lt_irrefl 0)
  | reshape id s dims n hs hd' hn => exact absurd hp (lt_irrefl 0)
  | l2norm id eps s n hs hr hn => exact absurd hp (lt_irrefl 0)
  | conv id wId bId g => exact hf.elim
  | upsample id c h w r hc hh hw hr => exact absurd hp (lt_irrefl 0)
  | maxpool id g => exact absurd hp (lt_irrefl 0)
  | seq id c => exact seq_jmjTp_none_weight hnp hdb hd val
  | skip id fid ch =>
    have ha : ((!db) || (db && fd && td)) = ((!db) || (db && true && td)) := by cases db <;> simp_all
    have key := fun v => seq_jmjTp_none_weight (id := fid) (td := td) hnp hdb hd v
    show SkipConnection.jmjTp (Sequential.mod fid true ch.mods) x val .none .weight fd td db =
      SkipConnection.jmjTp (Sequential.mod fid true ch.mods) x val (.tensor (ones [B, p])) .weight true td db
    simp only [SkipConnection.jmjTp]
    rw [ha]
    have key' : ∀ v, (Sequential.mod fid true ch.mods).jmjTp x v .none .weight fd td db =
      (Sequential.mod fid true ch.mods).jmjTp x v (.tensor (ones [B, p])) .weight true td db := key
    simp only [key']


/-! ### where `None` raises -/

theorem raises_of_res {β : Type} {p : Store ℝ → Res β} (h : ∀ s, RPost (p s) fun _ => False) : Prog.Raises (fun s => (p s, s) : Prog ℝ β) :=
  Post.raises (Post.of_res h)

theorem l2norm_jac_some (eps : ℝ) (x : Tensor ℝ) (val : Option (Tensor ℝ)) : RPost (L2Norm.jacobian eps x val .input) fun o => o ≠ none := by
  cases val
  all_goals
    refine RPost.any fun _ => RPost.any fun _ => RPost.any fun _ => RPost.any fun ⟨_, _⟩ => ?_
    refine RPost.any fun _ => RPost.any fun _ => RPost.any fun _ => RPost.any fun _ => RPost.any fun _ => RPost.any fun _ => RPost.any fun _ => ?_
    exact RPost.mapAny fun _ => by simp

theorem conv_mjpSome_rank5 (cfg : Conv2d.Cfg) (W : Tensor ℝ) (b : Option (Tensor ℝ)) (x v A : Tensor ℝ) (hA : A.shape.length = 3 → False) (wrt : Wrt) :
    RPost (Conv2d.mjpSome cfg W b x v A wrt) fun _ => False := by
  unfold Conv2d.mjpSome
  refine RPost.any fun ⟨_, _, _, _⟩ => RPost.any fun ⟨_, _, _, _⟩ => RPost.any fun rows => ?_
  refine RPost.bind (P := fun _ => False) ?_ fun _ h => h.elim
  intro _ h
  simp only [assertR] at h
  split at h
  · rename_i h'
    have h' := of_decide_eq_true h'
    exact hA (by rw [h']; rfl)
  · cases h

theorem diagEmbed_length (t : Tensor ℝ) : RPost t.diagEmbed fun u => u.shape.length = t.shape.length + 1 := by
  unfold Tensor.diagEmbed
  split
  · exact RPost.error
  · exact RPost.ok (by simp [ofFn])

theorem conv_jTmjp_none_full (cfg : Conv2d.Cfg) (W : Tensor ℝ) (b : Option (Tensor ℝ)) (x : Tensor ℝ) (val : Option (Tensor ℝ)) (wrt : Wrt) (hw : wrt ≠ .other)
    (fd db : Bool) : RPost (Conv2d.jTmjp cfg W b x val none wrt fd false db) fun _ => False := by
  unfold Conv2d.jTmjp
  refine RPost.any fun v => ?_
  cases wrt with
  | other => exact (hw rfl).elim
  | input =>
    refine (diagEmbed_length _).bind fun m hm => RPost.map (P := fun _ => False) ?_ fun _ h => h.elim
    unfold Conv2d.jTmjpInputFull Conv2d.mjp
    refine RPost.bind (P := fun _ => False) ?_ fun _ h => h.elim
    by_cases h4 : v.shape.length = 4
    · exact RPost.any fun _ => conv_mjpSome_rank5 _ _ _ _ _ _ (fun h => by rw [hm] at h; simp [onesLike, ones, full] at h; omega) _
    · refine RPost.bind (P := fun w => w = v) (RPost.ok rfl) fun w hw => ?_
      subst hw
      unfold Conv2d.mjpSome
      refine RPost.any fun ⟨_, _, _, _⟩ => RPost.bind (P := fun _ => False) ?_ fun _ h => h.elim
      unfold Tensor.dims4
      split
      · rename_i hh; exact (h4 (by rw [hh]; rfl)).elim
      · exact RPost.error
  | weight =>
    refine (diagEmbed_length _).bind fun m hm => RPost.map (P := fun _ => False) ?_ fun _ h => h.elim
    unfold Conv2d.jTmjpWeightFull
    refine RPost.any fun ⟨_, _, _, _⟩ => RPost.bind (P := fun _ => v.shape.length = 4) ?_ fun ⟨_, _, _, _⟩ h4 => ?_
    · unfold Tensor.dims4
      split
      · rename_i hh; exact RPost.ok (by rw [hh]; rfl)
      · exact RPost.error
    · refine RPost.bind (P := fun _ => False) ?_ fun _ h => h.elim
      intro _ h
      simp only [assertR] at h
      split at h
      · rename_i h'
        have h' := of_decide_eq_true h'
        rw [h'] at hm
        simp [onesLike, ones, full] at hm
        omega
      · cases h

theorem broadcastRev_length : ∀ (a b c : List Nat), broadcastRev a b = some c → b.length ≤ c.length
  | [], b, c, h => by simp [broadcastRev] at h; simp [h]
  | a :: s, [], c, h => by simp
  | a :: s, b :: t, c, h => by
    simp only [broadcastRev] at h
    split_ifs at h
    all_goals
      first
      | (obtain ⟨r, hr, rfl⟩ := Option.map_eq_some_iff.1 h
         have := broadcastRev_length s t r hr
         simpa using this)

theorem add_length (a b : Tensor ℝ) : RPost (a.add b) fun t => b.shape.length ≤ t.shape.length := by
  unfold Tensor.add Tensor.zipWithB
  split
  · rename_i h; exact RPost.ok (by simp [h])
  · split
    · exact RPost.error
    · rename_i rs h
      exact RPost.ok (by simpa [ofFn] using broadcastRev_length _ _ _ h)

theorem slice_length (a : Tensor ℝ) (d i j : Nat) : RPost (a.slice d i j) fun t => t.shape.length = a.shape.length := by
  unfold Tensor.slice
  split
  · exact RPost.error
  · exact RPost.ok (by simp [ofFn])

/-- `SkipConnection.jTmjp(x, val, None)` wrt input returns a tensor with at least as many dimensions as `val`
(one more without `to_diag`). -/
theorem skip_jTmjp_none_rank (F : Mod ℝ) (x v : Tensor ℝ) (fd td db : Bool) :
    Post (SkipConnection.jTmjp F x (some v) none .input fd td db) fun r =>
      ∃ t, r = .tensor t ∧ v.shape.length + (if td then 0 else 1) ≤ t.shape.length := by
  unfold SkipConnection.jTmjp
  refine Post.any fun _ => Post.bind (P := fun w => w = v) (Post.pure rfl) fun w hw => ?_
  subst hw
  refine Post.any fun l => Post.any fun _ => Post.any fun _ => Post.any fun _ => Post.any fun _ => Post.any fun j => ?_
  cases td with
  | true =>
    refine Post.bind (Post.lift (slice_length _ _ _ _)) fun hd hh => Post.bind (Post.lift (add_length _ _)) fun r hr => Post.pure ⟨r, rfl, ?_⟩
    rw [hh] at hr
    simpa [onesLike, ones, full] using hr
  | false =>
    refine Post.bind (Post.lift (slice_length _ _ _ _)) fun hd hh => Post.bind (Post.lift (diagEmbed_length _)) fun hd' hh' =>
      Post.bind (Post.lift (add_length _ _)) fun r hr => Post.pure ⟨r, rfl, ?_⟩
    rw [hh', hh] at hr
    simpa [onesLike, ones, full] using hr

theorem skip_jmjTp_none (F : Mod ℝ) (x : Tensor ℝ) (val : Option (Tensor ℝ)) (fd td db : Bool) :
    (SkipConnection.jmjTp F x val .none .input fd td db).Raises := by
  unfold SkipConnection.jmjTp
  refine Post.raises <| Post.any fun _ => Post.any fun _ => Post.any fun _ => Post.any fun _ => Post.any fun _ => Post.any fun _ =>
    Post.any fun _ => Post.bind (P := fun _ => False) Post.throw fun _ h => h.elim

end NNJ
