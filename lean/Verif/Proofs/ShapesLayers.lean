import Verif.Proofs.ShapesOps

/-!
# Helper lemmas: the shapes and exceptions of the layers do not depend on the entries
-/

namespace NNJ
namespace Shp
open Tensor

open Lean Elab Tactic Meta in
/-- One step through two copies of the same method body, chosen by the head of the first. -/
elab "shp_step" : tactic => do
  let tgt := (← instantiateMVars (← getMainTarget)).consumeMData
  let (fn, args) := tgt.getAppFnArgs
  unless fn == ``SameRes do throwError "not a comparison"
  let p := (args[3]!).consumeMData.headBeta
  let head := p.getAppFn.constName?.getD .anonymous
  let tac : TacticM Syntax := match head with
    | ``Bind.bind => `(tactic| first
        | refine bindT ?_ (fun _ _ _ => ?_)
        | refine bindO ?_ ?_ (fun _ _ _ => ?_)
        | refine bindB ?_ (fun _ _ _ _ => ?_)
        | refine bindE4 rfl (fun _ _ _ _ => ?_)
        | refine bindE2 rfl (fun _ _ => ?_)
        | refine bindE rfl (fun _ => ?_))
    | ``Functor.map => `(tactic| refine mapT ?_)
    | ``Except.ok => `(tactic| first | exact ok rfl | exact ok trivial | exact ok ⟨rfl, rfl⟩)
    | ``Pure.pure => `(tactic| first | exact pure' rfl | exact pure' trivial | exact pure' ⟨rfl, rfl⟩)
    | ``Except.error => `(tactic| exact err _)
    | ``NNJ.einsum => `(tactic| exact einsum _ _ rfl)
    | ``Tensor.reshape => `(tactic| exact reshape _)
    | ``Tensor.reshapeInfer => `(tactic| exact reshapeInfer _ _)
    | ``Tensor.reshapeOpen => `(tactic| exact reshapeOpen _)
    | ``Tensor.unsqueeze => `(tactic| exact unsqueeze _)
    | ``Tensor.slice => `(tactic| exact slice _ _ _)
    | ``Tensor.expandAt => `(tactic| exact expandAt _ _)
    | ``Tensor.transpose12 => `(tactic| exact transpose12)
    | ``Tensor.movedim => `(tactic| exact movedim _ _)
    | ``Tensor.flip => `(tactic| exact flip _)
    | ``Tensor.diagEmbed => `(tactic| exact diagEmbed)
    | ``Tensor.diagonal12 => `(tactic| exact diagonal12)
    | ``Tensor.cat2 => `(tactic| exact cat2 _)
    | ``Tensor.add => `(tactic| exact add)
    | ``Tensor.sub => `(tactic| exact sub)
    | ``Tensor.mul => `(tactic| exact mul)
    | ``Tensor.sum0 => `(tactic| exact sum0)
    | ``Tensor.sum1 => `(tactic| exact sum1)
    | ``Torch.linear => `(tactic| first | exact linear0 | exact linear1)
    | ``Torch.conv2d => `(tactic| first | exact conv2d0 _ | exact conv2d1 _)
    | ``Torch.convTranspose2d => `(tactic| exact convTranspose2d _)
    | ``Torch.upsampleNearest => `(tactic| exact upsampleNearest _ _)
    | ``needR => `(tactic| first | exact needR' rfl | exact needR' trivial)
    | _ => throwError "unknown operation"
  evalTactic (← tac)

/-- Walk through two copies of the same method body; the terms are facts about the methods called. -/
syntax "shp" ("[" term,* "]")? : tactic
macro_rules
  | `(tactic| shp) => `(tactic| repeat' (first | shp_step | dsimp only | split))
  | `(tactic| shp [$ts,*]) => do
    let mut acc ← `(tactic| fail)
    for t in ts.getElems.reverse do
      acc ← `(tactic| first | exact $t | $acc:tactic)
    `(tactic| repeat' (first | shp_step | ($acc:tactic) | dsimp only | split))

/-- destruct a hypothesis about two optional tensors -/
macro "sopt " h:ident : tactic => `(tactic|
  (rcases SameOpt.cases $h with ⟨h1, h2⟩ | ⟨_, _, _, h1, h2⟩ <;> (try clear $h) <;> subst h1 <;> subst h2))

variable {α β : Type} [Zero α] [One α] [Add α] [Mul α] [Zero β] [One β] [Add β] [Mul β]

/-- every method of the one layer does the same as that of the other, as far as exceptions and shapes go -/
structure SameLayer {α β : Type} (L : PureLayer α) (L' : PureLayer β) : Prop where
  forward : ∀ {s d e}, SameRes SameShape (L.forward ⟨s, d⟩) (L'.forward ⟨s, e⟩)
  jacobian : ∀ {s d e v v'} (wrt), SameOpt v v' → SameRes SameOpt (L.jacobian ⟨s, d⟩ v wrt) (L'.jacobian ⟨s, e⟩ v' wrt)
  jvp : ∀ {s d e v v' r c c'} (wrt), SameOpt v v' → SameRes SameOpt (L.jvp ⟨s, d⟩ v ⟨r, c⟩ wrt) (L'.jvp ⟨s, e⟩ v' ⟨r, c'⟩ wrt)
  jmp : ∀ {s d e v v' u u'} (wrt), SameOpt v v' → SameOpt u u' → SameRes SameOpt (L.jmp ⟨s, d⟩ v u wrt) (L'.jmp ⟨s, e⟩ v' u' wrt)
  jmjTp : ∀ {s d e v v' u u'} (wrt) (fd td db : Bool), SameOpt v v' → SameOpt u u' →
    SameRes SameOpt (L.jmjTp ⟨s, d⟩ v u wrt fd td db) (L'.jmjTp ⟨s, e⟩ v' u' wrt fd td db)
  vjp : ∀ {s d e v v' r c c'} (wrt), SameOpt v v' → SameRes SameOpt (L.vjp ⟨s, d⟩ v ⟨r, c⟩ wrt) (L'.vjp ⟨s, e⟩ v' ⟨r, c'⟩ wrt)
  mjp : ∀ {s d e v v' u u'} (wrt), SameOpt v v' → SameOpt u u' → SameRes SameOpt (L.mjp ⟨s, d⟩ v u wrt) (L'.mjp ⟨s, e⟩ v' u' wrt)
  jTmjp : ∀ {s d e v v' u u'} (wrt) (fd td db : Bool), SameOpt v v' → SameOpt u u' →
    SameRes SameOpt (L.jTmjp ⟨s, d⟩ v u wrt fd td db) (L'.jTmjp ⟨s, e⟩ v' u' wrt fd td db)

section linear
variable {sW : List Nat} {dW : Nat → α} {eW : Nat → β} {b : Option (Tensor α)} {b' : Option (Tensor β)}

theorem linear_getVal (hb : SameOpt b b') {s d e v v'} (hv : SameOpt v v') :
    SameRes SameShape (Linear.getVal (⟨sW, dW⟩ : Tensor α) b ⟨s, d⟩ v) (Linear.getVal (⟨sW, eW⟩ : Tensor β) b' ⟨s, e⟩ v') := by
  sopt hb <;> sopt hv <;> (unfold Linear.getVal Linear.forward; shp)

theorem linear_jacobian (hb : SameOpt b b') {s d e v v'} (wrt) (hv : SameOpt v v') :
    SameRes SameOpt (Linear.jacobian (⟨sW, dW⟩ : Tensor α) b ⟨s, d⟩ v wrt) (Linear.jacobian (⟨sW, eW⟩ : Tensor β) b' ⟨s, e⟩ v' wrt) := by
  have hg := linear_getVal (sW := sW) (dW := dW) (eW := eW) hb (s := s) (d := d) (e := e) hv
  sopt hb <;> cases wrt <;> (unfold Linear.jacobian; shp [hg])

theorem linear_jvp (n) (hb : SameOpt b b') {s d e v v' r c c'} (wrt) (hv : SameOpt v v') :
    SameRes SameOpt (Linear.jvp (⟨sW, dW⟩ : Tensor α) b n ⟨s, d⟩ v ⟨r, c⟩ wrt) (Linear.jvp (⟨sW, eW⟩ : Tensor β) b' n ⟨s, e⟩ v' ⟨r, c'⟩ wrt) := by
  have hg := linear_getVal (sW := sW) (dW := dW) (eW := eW) hb (s := s) (d := d) (e := e) hv
  sopt hb <;> cases wrt <;> (unfold Linear.jvp; shp [hg])

theorem linear_jmp (n) (hb : SameOpt b b') {s d e v v' u u'} (wrt) (hv : SameOpt v v') (hu : SameOpt u u') :
    SameRes SameOpt (Linear.jmp (⟨sW, dW⟩ : Tensor α) b n ⟨s, d⟩ v u wrt) (Linear.jmp (⟨sW, eW⟩ : Tensor β) b' n ⟨s, e⟩ v' u' wrt) := by
  have hg := linear_getVal (sW := sW) (dW := dW) (eW := eW) hb (s := s) (d := d) (e := e) hv
  sopt hu
  · exact linear_jacobian hb wrt hv
  · sopt hb <;> cases wrt <;> (unfold Linear.jmp; shp [hg])

theorem linear_full (n) (hb : SameOpt b b') {s d e s1 d1 e1 s2 d2 e2} :
    SameRes SameOpt (Linear.jmjTpWeightFull (⟨sW, dW⟩ : Tensor α) b n ⟨s, d⟩ ⟨s1, d1⟩ ⟨s2, d2⟩)
      (Linear.jmjTpWeightFull (⟨sW, eW⟩ : Tensor β) b' n ⟨s, e⟩ ⟨s1, e1⟩ ⟨s2, e2⟩) := by
  unfold Linear.jmjTpWeightFull
  shp [linear_jmp n hb .weight rfl rfl]

theorem linear_diag (hb : SameOpt b b') {s d e s1 d1 e1 s2 d2 e2} :
    SameRes SameShape (Linear.jmjTpWeightDiag (α := α) b ⟨s, d⟩ ⟨s1, d1⟩ ⟨s2, d2⟩)
      (Linear.jmjTpWeightDiag (α := β) b' ⟨s, e⟩ ⟨s1, e1⟩ ⟨s2, e2⟩) := by
  sopt hb <;> (unfold Linear.jmjTpWeightDiag; shp)

theorem linear_jmjTp (n) (hb : SameOpt b b') {s d e v v' u u'} (wrt) (fd td db : Bool) (hv : SameOpt v v') (hu : SameOpt u u') :
    SameRes SameOpt (Linear.jmjTp (⟨sW, dW⟩ : Tensor α) b n ⟨s, d⟩ v u wrt fd td db)
      (Linear.jmjTp (⟨sW, eW⟩ : Tensor β) b' n ⟨s, e⟩ v' u' wrt fd td db) := by
  have hg := linear_getVal (sW := sW) (dW := dW) (eW := eW) hb (s := s) (d := d) (e := e) hv
  sopt hu <;> cases wrt <;> cases fd <;> cases td <;> (unfold Linear.jmjTp; shp [hg, linear_full n hb, linear_diag hb])

theorem linear_vjp (hb : SameOpt b b') {s d e v v' r c c'} (wrt) (_ : SameOpt v v') :
    SameRes SameOpt (Linear.vjp (⟨sW, dW⟩ : Tensor α) b ⟨s, d⟩ v ⟨r, c⟩ wrt) (Linear.vjp (⟨sW, eW⟩ : Tensor β) b' ⟨s, e⟩ v' ⟨r, c'⟩ wrt) := by
  sopt hb <;> cases wrt <;> (unfold Linear.vjp; shp)

theorem linear_mjp (hb : SameOpt b b') {s d e v v' u u'} (wrt) (hv : SameOpt v v') (hu : SameOpt u u') :
    SameRes SameOpt (Linear.mjp (⟨sW, dW⟩ : Tensor α) b ⟨s, d⟩ v u wrt) (Linear.mjp (⟨sW, eW⟩ : Tensor β) b' ⟨s, e⟩ v' u' wrt) := by
  sopt hu
  · exact linear_jacobian hb wrt hv
  · sopt hb <;> cases wrt <;> (unfold Linear.mjp; shp)

theorem linear_jTmjp (hb : SameOpt b b') {s d e v v' u u'} (wrt) (fd td db : Bool) (hv : SameOpt v v') (hu : SameOpt u u') :
    SameRes SameOpt (Linear.jTmjp (⟨sW, dW⟩ : Tensor α) b ⟨s, d⟩ v u wrt fd td db)
      (Linear.jTmjp (⟨sW, eW⟩ : Tensor β) b' ⟨s, e⟩ v' u' wrt fd td db) := by
  have hg := linear_getVal (sW := sW) (dW := dW) (eW := eW) hb (s := s) (d := d) (e := e) hv
  have hb' := hb
  sopt hb <;> sopt hu <;> cases wrt <;> cases fd <;> cases td <;> (unfold Linear.jTmjp; shp [hg, linear_mjp hb' .weight rfl rfl])

theorem linear_layer (n) (hb : SameOpt b b') : SameLayer (Linear.layer (⟨sW, dW⟩ : Tensor α) b n) (Linear.layer (⟨sW, eW⟩ : Tensor β) b' n) where
  forward := linear_getVal hb (v := none) (v' := none) trivial
  jacobian := linear_jacobian hb
  jvp := linear_jvp n hb
  jmp := linear_jmp n hb
  jmjTp := linear_jmjTp n hb
  vjp := linear_vjp hb
  mjp := linear_mjp hb
  jTmjp := linear_jTmjp hb

end linear

section diagonal
variable {fw : Tensor α → Res (Tensor α)} {fw' : Tensor β → Res (Tensor β)} {jac : AbstractDiagonal.Jac α} {jac' : AbstractDiagonal.Jac β}

theorem sandwich_same {s d e s1 d1 e1} (fd td : Bool) : SameRes SameOpt (AbstractDiagonal.sandwich (⟨s, d⟩ : Tensor α) ⟨s1, d1⟩ fd td)
    (AbstractDiagonal.sandwich (⟨s, e⟩ : Tensor β) ⟨s1, e1⟩ fd td) := by
  cases fd <;> cases td <;> (unfold AbstractDiagonal.sandwich; shp)

theorem diagonal_layer (hf : ∀ {s d e}, SameRes SameShape (fw ⟨s, d⟩) (fw' ⟨s, e⟩))
    (hj : ∀ {s d e v v'} (wrt) (b : Bool), SameOpt v v' → SameRes SameOpt (jac ⟨s, d⟩ v wrt b) (jac' ⟨s, e⟩ v' wrt b)) :
    SameLayer (AbstractDiagonal.defaults fw jac) (AbstractDiagonal.defaults fw' jac') where
  forward := hf
  jacobian wrt hv := hj wrt _ hv
  jvp {s d e v v' r c c'} wrt hv := by
    show SameRes _ (AbstractDiagonal.jvp jac _ _ _ wrt) (AbstractDiagonal.jvp jac' _ _ _ wrt)
    unfold AbstractDiagonal.jvp
    shp [hj wrt _ hv]
  jmp {s d e v v' u u'} wrt hv hu := by
    show SameRes _ (AbstractDiagonal.jmp jac _ _ _ wrt) (AbstractDiagonal.jmp jac' _ _ _ wrt)
    unfold AbstractDiagonal.jmp
    sopt hu <;> shp [hj wrt _ hv]
  jmjTp {s d e v v' u u'} wrt fd td db hv hu := by
    show SameRes _ (AbstractDiagonal.jmjTp fw jac _ _ _ wrt fd td db) (AbstractDiagonal.jmjTp fw' jac' _ _ _ wrt fd td db)
    unfold AbstractDiagonal.jmjTp
    sopt hu <;> sopt hv <;> shp [hf, hj wrt _ rfl, sandwich_same _ _]
  vjp {s d e v v' r c c'} wrt hv := by
    show SameRes _ (AbstractDiagonal.vjp jac _ _ _ wrt) (AbstractDiagonal.vjp jac' _ _ _ wrt)
    unfold AbstractDiagonal.vjp
    shp [hj wrt _ hv]
  mjp {s d e v v' u u'} wrt hv hu := by
    show SameRes _ (AbstractDiagonal.mjp jac _ _ _ wrt) (AbstractDiagonal.mjp jac' _ _ _ wrt)
    unfold AbstractDiagonal.mjp
    sopt hu <;> shp [hj wrt _ hv]
  jTmjp {s d e v v' u u'} wrt fd td db hv hu := by
    show SameRes _ (AbstractDiagonal.jTmjp fw jac _ _ _ wrt fd td db) (AbstractDiagonal.jTmjp fw' jac' _ _ _ wrt fd td db)
    unfold AbstractDiagonal.jTmjp
    sopt hu <;> sopt hv <;> shp [hf, hj wrt _ rfl, sandwich_same _ _]

/-- an elementwise layer whose Jacobian diagonal has the shape of `val`, or that of `x` -/
theorem activation_layer (f : α → α) (f' : β → β) (dg : Tensor α → Tensor α → Tensor α) (dg' : Tensor β → Tensor β → Tensor β)
    (h : ∀ s d e s1 d1 e1, SameShape (dg ⟨s, d⟩ ⟨s1, d1⟩) (dg' ⟨s, e⟩ ⟨s1, e1⟩)) :
    SameLayer (Activation.layer f dg) (Activation.layer f' dg') := by
  refine diagonal_layer rfl fun {s d e v v'} wrt b hv => ?_
  have hd : ∀ s1 d1 e1 n, SameRes SameShape ((dg ⟨s, d⟩ ⟨s1, d1⟩).reshapeInfer [n] []) ((dg' ⟨s, e⟩ ⟨s1, e1⟩).reshapeInfer [n] []) := fun s1 d1 e1 n => by
    obtain ⟨r, c, c', h1, h2⟩ := SameShape.cases (h s d e s1 d1 e1)
    rw [h1, h2]
    exact reshapeInfer _ _
  unfold Activation.jacobian
  cases wrt
  · sopt hv
    · refine bindT (ok rfl) fun _ _ _ => bindE rfl fun _ => bindT (hd _ _ _ _) fun _ _ _ => ?_
      shp
    · refine bindT (ok rfl) fun _ _ _ => bindE rfl fun _ => bindT (hd _ _ _ _) fun _ _ _ => ?_
      shp
  · shp
  · shp

end diagonal

section abstract
variable {fw : Tensor α → Res (Tensor α)} {fw' : Tensor β → Res (Tensor β)} {jac : AbstractJacobian.Jac α} {jac' : AbstractJacobian.Jac β}

theorem abstract_layer (hf : ∀ {s d e}, SameRes SameShape (fw ⟨s, d⟩) (fw' ⟨s, e⟩))
    (hj : ∀ {s d e v v'} (wrt), SameOpt v v' → SameRes SameOpt (jac ⟨s, d⟩ v wrt) (jac' ⟨s, e⟩ v' wrt)) :
    SameLayer (AbstractJacobian.defaults fw jac) (AbstractJacobian.defaults fw' jac') where
  forward := hf
  jacobian wrt hv := hj wrt hv
  jvp {s d e v v' r c c'} wrt hv := by
    show SameRes _ (AbstractJacobian.jvp jac _ _ _ wrt) (AbstractJacobian.jvp jac' _ _ _ wrt)
    unfold AbstractJacobian.jvp
    shp [hj wrt hv]
  jmp {s d e v v' u u'} wrt hv hu := by
    show SameRes _ (AbstractJacobian.jmp jac _ _ _ wrt) (AbstractJacobian.jmp jac' _ _ _ wrt)
    unfold AbstractJacobian.jmp
    sopt hu <;> shp [hj wrt hv]
  jmjTp {s d e v v' u u'} wrt fd td db hv hu := by
    show SameRes _ (AbstractJacobian.jmjTp jac _ _ _ wrt fd td db) (AbstractJacobian.jmjTp jac' _ _ _ wrt fd td db)
    unfold AbstractJacobian.jmjTp
    sopt hu <;> cases fd <;> cases td <;> cases db <;> shp [hj wrt hv]
  vjp {s d e v v' r c c'} wrt hv := by
    show SameRes _ (AbstractJacobian.vjp jac _ _ _ wrt) (AbstractJacobian.vjp jac' _ _ _ wrt)
    unfold AbstractJacobian.vjp
    shp [hj wrt hv]
  mjp {s d e v v' u u'} wrt hv hu := by
    show SameRes _ (AbstractJacobian.mjp jac _ _ _ wrt) (AbstractJacobian.mjp jac' _ _ _ wrt)
    unfold AbstractJacobian.mjp
    sopt hu <;> shp [hj wrt hv]
  jTmjp {s d e v v' u u'} wrt fd td db hv hu := by
    show SameRes _ (AbstractJacobian.jTmjp jac _ _ _ wrt fd td db) (AbstractJacobian.jTmjp jac' _ _ _ wrt fd td db)
    unfold AbstractJacobian.jTmjp
    sopt hu <;> cases fd <;> cases td <;> cases db <;> shp [hj wrt hv]

end abstract

section l2
variable [Sub α] [Div α] [Trans α] [Sub β] [Div β] [Trans β]

theorem l2_rowNorm {s d e} : SameRes SameShape (L2Norm.rowNorm (⟨s, d⟩ : Tensor α)) (L2Norm.rowNorm (⟨s, e⟩ : Tensor β)) := by
  unfold L2Norm.rowNorm
  dsimp only
  split <;> rfl

theorem l2_forward (c : α) (c' : β) {s d e} : SameRes SameShape (L2Norm.forward c ⟨s, d⟩) (L2Norm.forward c' ⟨s, e⟩) := by
  unfold L2Norm.forward
  shp [l2_rowNorm]

theorem l2_layer (c : α) (c' : β) : SameLayer (L2Norm.layer c) (L2Norm.layer c') := by
  refine abstract_layer (l2_forward c c') fun {s d e v v'} wrt hv => ?_
  unfold L2Norm.jacobian
  sopt hv <;> cases wrt <;> shp [l2_rowNorm, l2_forward c c']

end l2

section resh
variable {fw : Tensor α → Res (Tensor α)} {fw' : Tensor β → Res (Tensor β)}

theorem resh_layer (hf : ∀ {s d e}, SameRes SameShape (fw ⟨s, d⟩) (fw' ⟨s, e⟩)) : SameLayer (Resh.layer fw) (Resh.layer fw') where
  forward := hf
  jacobian {s d e v v'} wrt hv := by
    dsimp only [Resh.layer]
    unfold Resh.jacobian
    cases wrt <;> shp
  jvp {s d e v v' r c c'} wrt hv := by
    dsimp only [Resh.layer]
    unfold Resh.jvp
    cases wrt <;> shp
  jmp {s d e v v' u u'} wrt hv hu := by
    dsimp only [Resh.layer]
    unfold Resh.jmp
    sopt hu <;> cases wrt <;> shp
  jmjTp {s d e v v' u u'} wrt fd td db hv hu := by
    dsimp only [Resh.layer]
    unfold Resh.jmjTp Resh.sandwich
    sopt hu <;> cases wrt <;> cases fd <;> cases td <;> shp
  vjp {s d e v v' r c c'} wrt hv := by
    dsimp only [Resh.layer]
    unfold Resh.vjp
    cases wrt <;> shp
  mjp {s d e v v' u u'} wrt hv hu := by
    dsimp only [Resh.layer]
    unfold Resh.jmp
    sopt hu <;> cases wrt <;> shp
  jTmjp {s d e v v' u u'} wrt fd td db hv hu := by
    dsimp only [Resh.layer]
    unfold Resh.jTmjp Resh.sandwich
    sopt hu <;> sopt hv <;> cases wrt <;> cases fd <;> cases td <;> shp [hf]

theorem flatten_forward {s d e} : SameRes SameShape (Resh.flattenForward (⟨s, d⟩ : Tensor α)) (Resh.flattenForward (⟨s, e⟩ : Tensor β)) := by
  unfold Resh.flattenForward
  shp

theorem reshape_forward (z) {s d e} : SameRes SameShape (Resh.reshapeForward z (⟨s, d⟩ : Tensor α)) (Resh.reshapeForward z (⟨s, e⟩ : Tensor β)) := by
  unfold Resh.reshapeForward
  shp

end resh

section up
variable (f : Upsample.Scale)

theorem up_getVal {s d e v v'} (hv : SameOpt v v') :
    SameRes SameShape (Upsample.getVal f (⟨s, d⟩ : Tensor α) v) (Upsample.getVal f (⟨s, e⟩ : Tensor β) v') := by
  sopt hv <;> (unfold Upsample.getVal Upsample.forward; shp)

theorem up_pool {s d e} (r h w : Nat) : SameRes SameShape (Upsample.pool f (⟨s, d⟩ : Tensor α) r h w) (Upsample.pool f (⟨s, e⟩ : Tensor β) r h w) := by
  unfold Upsample.pool
  shp

theorem up_mjpSome {s d e v v' r c c'} (wrt) (hv : SameOpt v v') :
    SameRes SameOpt (Upsample.mjpSome f (⟨s, d⟩ : Tensor α) v ⟨r, c⟩ wrt) (Upsample.mjpSome f (⟨s, e⟩ : Tensor β) v' ⟨r, c'⟩ wrt) := by
  unfold Upsample.mjpSome
  cases wrt <;> shp [up_getVal f hv, up_pool f _ _ _]

theorem up_jacobian {s d e v v'} (wrt) (hv : SameOpt v v') :
    SameRes SameOpt (Upsample.jacobian f (⟨s, d⟩ : Tensor α) v wrt) (Upsample.jacobian f (⟨s, e⟩ : Tensor β) v' wrt) := by
  unfold Upsample.jacobian
  cases wrt <;> shp [up_getVal f hv, up_mjpSome f _ rfl]

theorem up_full (b c2 h1 w1 h2 w2 : Nat) {s d e} :
    SameRes SameShape (Upsample.jTmjpFull f b c2 h1 w1 h2 w2 (⟨s, d⟩ : Tensor α)) (Upsample.jTmjpFull f b c2 h1 w1 h2 w2 (⟨s, e⟩ : Tensor β)) := by
  unfold Upsample.jTmjpFull
  shp [up_pool f _ _ _]

set_option maxHeartbeats 1000000 in
theorem up_jTmjp {s d e v v' u u'} (wrt) (fd td db : Bool) (hv : SameOpt v v') (hu : SameOpt u u') :
    SameRes SameOpt (Upsample.jTmjp f (⟨s, d⟩ : Tensor α) v u wrt fd td db) (Upsample.jTmjp f (⟨s, e⟩ : Tensor β) v' u' wrt fd td db) := by
  have hg := up_getVal (α := α) (β := β) f (s := s) (d := d) (e := e) hv
  sopt hu <;> cases wrt <;> cases fd <;> cases td <;> (unfold Upsample.jTmjp; shp [hg, up_pool f _ _ _, up_full f _ _ _ _ _ _])

theorem up_layer : SameLayer (Upsample.layer f : PureLayer α) (Upsample.layer f : PureLayer β) where
  forward := up_getVal f (v := none) (v' := none) trivial
  jacobian := up_jacobian f
  jvp {s d e v v' r c c'} wrt hv := by
    dsimp only [Upsample.layer]
    unfold Upsample.jvp
    cases wrt <;> shp
  jmp {s d e v v' u u'} wrt hv hu := by
    dsimp only [Upsample.layer]
    unfold Upsample.jmp
    sopt hu <;> cases wrt <;> shp [up_jacobian f _ hv]
  jmjTp {s d e v v' u u'} wrt fd td db hv hu := by
    dsimp only [Upsample.layer]
    unfold Upsample.jmjTp
    cases wrt <;> shp [up_getVal f hv]
  vjp {s d e v v' r c c'} wrt hv := by
    dsimp only [Upsample.layer]
    unfold Upsample.vjp
    cases wrt <;> shp [up_getVal f hv, up_pool f _ _ _]
  mjp {s d e v v' u u'} wrt hv hu := by
    dsimp only [Upsample.layer]
    unfold Upsample.mjp
    sopt hu <;> shp [up_jacobian f _ hv, up_mjpSome f _ hv]
  jTmjp := up_jTmjp f

end up

section conv
variable (cfg : Conv2d.Cfg) {sW : List Nat} {dW : Nat → α} {eW : Nat → β} {b : Option (Tensor α)} {b' : Option (Tensor β)}

theorem conv_getVal (hb : SameOpt b b') {s d e v v'} (hv : SameOpt v v') :
    SameRes SameShape (Conv2d.getVal cfg (⟨sW, dW⟩ : Tensor α) b ⟨s, d⟩ v) (Conv2d.getVal cfg (⟨sW, eW⟩ : Tensor β) b' ⟨s, e⟩ v') := by
  sopt hb <;> sopt hv <;> (unfold Conv2d.getVal Conv2d.forward; shp)

theorem conv_vjpSingle (c1 c2 h2 w2 : Nat) {s d e s1 d1 e1} : SameRes SameShape (Conv2d.vjpSingle cfg c1 c2 h2 w2 (⟨s, d⟩ : Tensor α) ⟨s1, d1⟩)
    (Conv2d.vjpSingle cfg c1 c2 h2 w2 (⟨s, e⟩ : Tensor β) ⟨s1, e1⟩) := by
  unfold Conv2d.vjpSingle
  shp

theorem conv_vjpKernel (b c1 c2 h2 w2 : Nat) {s d e s1 d1 e1} : SameRes SameShape (Conv2d.vjpKernel cfg (⟨s, d⟩ : Tensor α) b c1 c2 h2 w2 ⟨s1, d1⟩)
    (Conv2d.vjpKernel cfg (⟨s, e⟩ : Tensor β) b c1 c2 h2 w2 ⟨s1, e1⟩) := by
  unfold Conv2d.vjpKernel
  split
  · refine bindT (flip _) fun _ _ _ => vmap2 fun _ _ _ _ _ _ => ?_
    shp [conv_vjpSingle cfg _ _ _ _]
  · refine bindT (movedim _ _) fun _ _ _ => fillRows (fun i => ?_) _
    shp [conv_vjpSingle cfg _ _ _ _]

theorem conv_vjp (hb : SameOpt b b') {s d e v v' r c c'} (wrt) (hv : SameOpt v v') :
    SameRes SameOpt (Conv2d.vjp cfg (⟨sW, dW⟩ : Tensor α) b ⟨s, d⟩ v ⟨r, c⟩ wrt) (Conv2d.vjp cfg (⟨sW, eW⟩ : Tensor β) b' ⟨s, e⟩ v' ⟨r, c'⟩ wrt) := by
  have hg := conv_getVal cfg (sW := sW) (dW := dW) (eW := eW) hb (s := s) (d := d) (e := e) hv
  sopt hb <;> cases wrt <;> (unfold Conv2d.vjp; shp [hg, conv_vjpKernel cfg _ _ _ _ _])

theorem conv_mjpSingle (c1 c2 h2 w2 rows : Nat) {s d e s1 d1 e1} :
    SameRes SameShape (Conv2d.mjpSingle cfg c1 c2 h2 w2 rows (⟨s, d⟩ : Tensor α) ⟨s1, d1⟩)
      (Conv2d.mjpSingle cfg c1 c2 h2 w2 rows (⟨s, e⟩ : Tensor β) ⟨s1, e1⟩) := by
  unfold Conv2d.mjpSingle
  shp

theorem conv_mjpKernel (b c1 c2 h2 w2 rows : Nat) {s d e s1 d1 e1} :
    SameRes SameShape (Conv2d.mjpKernel cfg (⟨s, d⟩ : Tensor α) b c1 c2 h2 w2 rows ⟨s1, d1⟩)
      (Conv2d.mjpKernel cfg (⟨s, e⟩ : Tensor β) b c1 c2 h2 w2 rows ⟨s1, e1⟩) := by
  unfold Conv2d.mjpKernel
  split
  · refine bindT (flip _) fun _ _ _ => vmap2 fun _ _ _ _ _ _ => ?_
    shp [conv_mjpSingle cfg _ _ _ _ _]
  · refine bindT (movedim _ _) fun _ _ _ => fillRows (fun i => ?_) _
    shp [conv_mjpSingle cfg _ _ _ _ _]

theorem conv_mjpSome (hb : SameOpt b b') {s d e s1 d1 e1 r c c'} (wrt) :
    SameRes SameOpt (Conv2d.mjpSome cfg (⟨sW, dW⟩ : Tensor α) b ⟨s, d⟩ ⟨s1, d1⟩ ⟨r, c⟩ wrt)
      (Conv2d.mjpSome cfg (⟨sW, eW⟩ : Tensor β) b' ⟨s, e⟩ ⟨s1, e1⟩ ⟨r, c'⟩ wrt) := by
  sopt hb <;> cases wrt <;> (unfold Conv2d.mjpSome; shp [conv_mjpKernel cfg _ _ _ _ _ _])

theorem conv_jacobian (hb : SameOpt b b') {s d e v v'} (wrt) (hv : SameOpt v v') :
    SameRes SameOpt (Conv2d.jacobian cfg (⟨sW, dW⟩ : Tensor α) b ⟨s, d⟩ v wrt) (Conv2d.jacobian cfg (⟨sW, eW⟩ : Tensor β) b' ⟨s, e⟩ v' wrt) := by
  unfold Conv2d.jacobian
  shp [conv_getVal cfg hb hv, conv_mjpSome cfg hb _]

theorem conv_mjp (hb : SameOpt b b') {s d e v v' u u'} (wrt) (hv : SameOpt v v') (hu : SameOpt u u') :
    SameRes SameOpt (Conv2d.mjp cfg (⟨sW, dW⟩ : Tensor α) b ⟨s, d⟩ v u wrt) (Conv2d.mjp cfg (⟨sW, eW⟩ : Tensor β) b' ⟨s, e⟩ v' u' wrt) := by
  unfold Conv2d.mjp
  sopt hu <;> shp [conv_getVal cfg hb hv, conv_jacobian cfg hb _ rfl, conv_mjpSome cfg hb _]

theorem conv_inputFull (hb : SameOpt b b') {s d e s1 d1 e1 r c c'} :
    SameRes SameShape (Conv2d.jTmjpInputFull cfg (⟨sW, dW⟩ : Tensor α) b ⟨s, d⟩ ⟨s1, d1⟩ ⟨r, c⟩)
      (Conv2d.jTmjpInputFull cfg (⟨sW, eW⟩ : Tensor β) b' ⟨s, e⟩ ⟨s1, e1⟩ ⟨r, c'⟩) := by
  unfold Conv2d.jTmjpInputFull
  shp [conv_mjp cfg hb _ rfl rfl]

theorem conv_inputDiag {s d e s1 d1 e1 r c c'} :
    SameRes SameShape (Conv2d.jTmjpInputDiag cfg (⟨sW, dW⟩ : Tensor α) ⟨s, d⟩ ⟨s1, d1⟩ ⟨r, c⟩)
      (Conv2d.jTmjpInputDiag cfg (⟨sW, eW⟩ : Tensor β) ⟨s, e⟩ ⟨s1, e1⟩ ⟨r, c'⟩) := by
  unfold Conv2d.jTmjpInputDiag
  shp

theorem conv_tail (hb : SameOpt b b') (c1 c2 h2 w2 rows : Nat) {s d e s1 d1 e1} :
    SameRes SameShape (Conv2d.weightPassTail cfg b c1 c2 h2 w2 rows (⟨s, d⟩ : Tensor α) ⟨s1, d1⟩)
      (Conv2d.weightPassTail cfg b' c1 c2 h2 w2 rows (⟨s, e⟩ : Tensor β) ⟨s1, e1⟩) := by
  sopt hb <;> (unfold Conv2d.weightPassTail; shp [conv_mjpSingle cfg _ _ _ _ _])

theorem conv_pass (hb : SameOpt b b') (c1 c2 h2 w2 rows : Nat) {s d e s1 d1 e1} :
    SameRes SameShape (Conv2d.weightPass cfg b c1 c2 h2 w2 rows (⟨s, d⟩ : Tensor α) ⟨s1, d1⟩)
      (Conv2d.weightPass cfg b' c1 c2 h2 w2 rows (⟨s, e⟩ : Tensor β) ⟨s1, e1⟩) := by
  unfold Conv2d.weightPass
  shp [conv_tail cfg hb _ _ _ _ _]

theorem conv_sandwich (hb : SameOpt b b') (c1 c2 h2 w2 : Nat) {s d e s1 d1 e1} :
    SameRes SameShape (Conv2d.weightSandwich cfg b c1 c2 h2 w2 (⟨s, d⟩ : Tensor α) ⟨s1, d1⟩)
      (Conv2d.weightSandwich cfg b' c1 c2 h2 w2 (⟨s, e⟩ : Tensor β) ⟨s1, e1⟩) := by
  unfold Conv2d.weightSandwich
  shp [conv_pass cfg hb _ _ _ _ _, conv_tail cfg hb _ _ _ _ _]

theorem conv_weightFull (hb : SameOpt b b') {s d e s1 d1 e1 r c c'} :
    SameRes SameShape (Conv2d.jTmjpWeightFull cfg b (⟨s, d⟩ : Tensor α) ⟨s1, d1⟩ ⟨r, c⟩)
      (Conv2d.jTmjpWeightFull cfg b' (⟨s, e⟩ : Tensor β) ⟨s1, e1⟩ ⟨r, c'⟩) := by
  unfold Conv2d.jTmjpWeightFull
  refine bindE4 rfl fun _ _ _ _ => bindE4 rfl fun _ _ _ _ => bindE rfl fun _ => ?_
  split
  · refine vmap2 fun _ _ _ _ _ _ => ?_
    shp [conv_sandwich cfg hb _ _ _ _]
  · refine fillRows (fun i => ?_) _
    shp [conv_sandwich cfg hb _ _ _ _]

theorem conv_diagSingle (c1 c2 h2 w2 : Nat) {s d e s1 d1 e1} :
    SameRes SameShape (Conv2d.weightDiagSingle cfg c1 c2 h2 w2 (⟨s, d⟩ : Tensor α) ⟨s1, d1⟩)
      (Conv2d.weightDiagSingle cfg c1 c2 h2 w2 (⟨s, e⟩ : Tensor β) ⟨s1, e1⟩) := by
  unfold Conv2d.weightDiagSingle
  shp

omit [One α] [Mul α] [One β] [Mul β] in
theorem conv_sum2 {s d e} : SameRes SameShape (Conv2d.sum2 (⟨s, d⟩ : Tensor α)) (Conv2d.sum2 (⟨s, e⟩ : Tensor β)) := by
  unfold Conv2d.sum2
  dsimp only
  split <;> rfl

theorem conv_diagKernel (b c1 c2 h2 w2 : Nat) {s d e s1 d1 e1} :
    SameRes SameShape (Conv2d.weightDiagKernel cfg b c1 c2 h2 w2 (⟨s, d⟩ : Tensor α) ⟨s1, d1⟩)
      (Conv2d.weightDiagKernel cfg b c1 c2 h2 w2 (⟨s, e⟩ : Tensor β) ⟨s1, e1⟩) := by
  unfold Conv2d.weightDiagKernel
  split
  · refine vmap2 fun _ _ _ _ _ _ => ?_
    shp [conv_diagSingle cfg _ _ _ _]
  · refine bindT (movedim _ _) fun _ _ _ => bindT (movedim _ _) fun _ _ _ => fillRows (fun i => ?_) _
    shp [conv_diagSingle cfg _ _ _ _]

theorem conv_weightDiag (hb : SameOpt b b') {s d e s1 d1 e1 r c c'} :
    SameRes SameShape (Conv2d.jTmjpWeightDiag cfg b (⟨s, d⟩ : Tensor α) ⟨s1, d1⟩ ⟨r, c⟩)
      (Conv2d.jTmjpWeightDiag cfg b' (⟨s, e⟩ : Tensor β) ⟨s1, e1⟩ ⟨r, c'⟩) := by
  sopt hb <;> (unfold Conv2d.jTmjpWeightDiag; shp [conv_diagKernel cfg _ _ _ _ _, conv_sum2])

set_option maxHeartbeats 1000000 in
theorem conv_jTmjp (hb : SameOpt b b') {s d e v v' u u'} (wrt) (fd td db : Bool) (hv : SameOpt v v') (hu : SameOpt u u') :
    SameRes SameOpt (Conv2d.jTmjp cfg (⟨sW, dW⟩ : Tensor α) b ⟨s, d⟩ v u wrt fd td db)
      (Conv2d.jTmjp cfg (⟨sW, eW⟩ : Tensor β) b' ⟨s, e⟩ v' u' wrt fd td db) := by
  have hg := conv_getVal cfg (sW := sW) (dW := dW) (eW := eW) hb (s := s) (d := d) (e := e) hv
  sopt hu <;> cases wrt <;> cases fd <;> cases td <;>
    (unfold Conv2d.jTmjp; shp [hg, conv_inputFull cfg hb, conv_inputDiag cfg, conv_weightFull cfg hb, conv_weightDiag cfg hb])

theorem conv_layer (hb : SameOpt b b') : SameLayer (Conv2d.layer cfg (⟨sW, dW⟩ : Tensor α) b) (Conv2d.layer cfg (⟨sW, eW⟩ : Tensor β) b') where
  forward := conv_getVal cfg hb (v := none) (v' := none) trivial
  jacobian := conv_jacobian cfg hb
  jvp {s d e v v' r c c'} wrt hv := by
    dsimp only [Conv2d.layer]
    unfold Conv2d.jvp
    cases wrt <;> shp
  jmp {s d e v v' u u'} wrt hv hu := by
    dsimp only [Conv2d.layer]
    unfold Conv2d.jmp
    sopt hu <;> cases wrt <;> shp [conv_jacobian cfg hb _ hv]
  jmjTp {s d e v v' u u'} wrt fd td db hv hu := by
    dsimp only [Conv2d.layer]
    unfold Conv2d.jmjTp
    cases wrt <;> shp [conv_getVal cfg hb hv]
  vjp := conv_vjp cfg hb
  mjp := conv_mjp cfg hb
  jTmjp := conv_jTmjp cfg hb

end conv

end Shp
end NNJ
