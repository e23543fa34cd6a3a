import Verif.Proofs.ShapesNets

/-!
# Helper lemmas: the shapes and exceptions of SkipConnection do not depend on the entries, and all networks
-/

namespace NNJ
namespace Shp
open Tensor

/-- One step through two copies of the same method body. -/
macro "psk_step" : tactic => `(tactic| first
  | refine pbindT (pneed (by assumption)) (fun _ _ _ => ?_)
  | refine pbindE (plift (by exact rrefl _)) (fun _ => ?_)
  | refine pbindE (passert _) (fun _ => ?_)
  | refine pbindT (plift ?_) (fun _ _ _ => ?_)
  | exact ppure rfl
  | exact ppure trivial
  | exact ppure (by assumption)
  | shp_step)

/-- Walk through two copies of the same method body. -/
macro "psk" : tactic => `(tactic| repeat' psk_step)

variable {α β : Type} [Zero α] [One α] [Add α] [Mul α] [Zero β] [One β] [Add β] [Mul β]
variable {F : Mod α} {F' : Mod β}

omit [Zero α] [One α] [Add α] [Mul α] [Zero β] [One β] [Add β] [Mul β] in
theorem tailVal_same {v : Option (Tensor α)} {v' : Option (Tensor β)} (hv : SameOpt v v') (l : Nat) :
    SameRes SameOpt (SkipConnection.tailVal v l) (SkipConnection.tailVal v' l) := by
  unfold SkipConnection.tailVal
  sopt hv
  · exact ok trivial
  · exact bindE rfl fun _ => mapT (slice _ _ _)

theorem skip_forward (hF : SameMod F F') {s d e} : SameProg SameShape (SkipConnection.forward F ⟨s, d⟩) (SkipConnection.forward F' ⟨s, e⟩) :=
  pbindT (call_same hF rfl) fun _ _ _ => plift (cat2 1)

theorem skip_getVal (hF : SameMod F F') {s d e} {v v'} (hv : SameOpt v v') :
    SameProg SameShape (SkipConnection.getVal F ⟨s, d⟩ v) (SkipConnection.getVal F' ⟨s, e⟩ v') := by
  sopt hv
  · exact skip_forward hF
  · exact ppure rfl

theorem skip_jacobian (hF : SameMod F F') (n : Nat) {s d e} {v v'} (wrt) (hv : SameOpt v v') :
    SameProg SameOpt (SkipConnection.jacobian F n ⟨s, d⟩ v wrt) (SkipConnection.jacobian F' n ⟨s, e⟩ v' wrt) := by
  unfold SkipConnection.jacobian
  refine pbindO (hF.jacobian _ rfl hv) fun _ _ hj => pbindE (plift (by exact rrefl _)) fun _ => pbindE (plift (by exact rrefl _)) fun _ =>
    pbindT (skip_getVal hF hv) fun _ _ _ => ?_
  cases wrt <;> psk

theorem skip_jvp (hF : SameMod F F') {s d e r c c'} {v v'} (wrt) (hv : SameOpt v v') :
    SameProg SameOpt (SkipConnection.jvp F ⟨s, d⟩ v ⟨r, c⟩ wrt) (SkipConnection.jvp F' ⟨s, e⟩ v' ⟨r, c'⟩ wrt) := by
  unfold SkipConnection.jvp
  refine pbindE (plift (by exact rrefl _)) fun _ => pbindE (plift (by exact rrefl _)) fun l => pbindO (plift (tailVal_same hv l)) fun _ _ ht =>
    pbindO (hF.jvp _ rfl ht rfl) fun _ _ hj => ?_
  cases wrt <;> psk

theorem skip_jmp (hF : SameMod F F') (n : Nat) {s d e} {v v' u u'} (wrt) (hv : SameOpt v v') (hu : SameOpt u u') :
    SameProg SameOpt (SkipConnection.jmp F n ⟨s, d⟩ v u wrt) (SkipConnection.jmp F' n ⟨s, e⟩ v' u' wrt) := by
  sopt hu
  · exact skip_jacobian hF n wrt hv
  refine pbindE (plift (by exact rrefl _)) fun _ => pbindE (plift (by exact rrefl _)) fun l => pbindO (plift (tailVal_same hv l)) fun _ _ ht =>
    pbindO (hF.jmp _ rfl ht rfl) fun _ _ hj => ?_
  cases wrt <;> psk

theorem skip_vjp (hF : SameMod F F') {s d e r c c'} {v v'} (wrt) (hv : SameOpt v v') :
    SameProg SameOpt (SkipConnection.vjp F ⟨s, d⟩ v ⟨r, c⟩ wrt) (SkipConnection.vjp F' ⟨s, e⟩ v' ⟨r, c'⟩ wrt) := by
  unfold SkipConnection.vjp
  refine pbindE (plift (by exact rrefl _)) fun l => pbindO (plift (tailVal_same hv l)) fun _ _ ht => pbindE (plift (by exact rrefl _)) fun _ =>
    pbindT (plift (slice _ _ _)) fun _ _ _ => pbindO (hF.vjp _ rfl ht rfl) fun _ _ hj => ?_
  cases wrt <;> psk

theorem skip_mjp (hF : SameMod F F') (n : Nat) {s d e} {v v' u u'} (wrt) (hv : SameOpt v v') (hu : SameOpt u u') :
    SameProg SameOpt (SkipConnection.mjp F n ⟨s, d⟩ v u wrt) (SkipConnection.mjp F' n ⟨s, e⟩ v' u' wrt) := by
  sopt hu
  · exact skip_jacobian hF n wrt hv
  refine pbindE (plift (by exact rrefl _)) fun l => pbindO (plift (tailVal_same hv l)) fun _ _ ht => pbindE (plift (by exact rrefl _)) fun _ =>
    pbindT (plift (slice _ _ _)) fun _ _ _ => pbindO (hF.mjp _ rfl ht rfl) fun _ _ hj => ?_
  cases wrt <;> psk

theorem blocks_same {s1 s2 s3 s4 : List Nat} {d1 d2 d3 d4 : Nat → α} {e1 e2 e3 e4 : Nat → β} :
    SameRes SameShape (SkipConnection.blocks ⟨s1, d1⟩ ⟨s2, d2⟩ ⟨s3, d3⟩ ⟨s4, d4⟩) (SkipConnection.blocks ⟨s1, e1⟩ ⟨s2, e2⟩ ⟨s3, e3⟩ ⟨s4, e4⟩) := by
  unfold SkipConnection.blocks
  shp

theorem slice2_same {s : List Nat} {d : Nat → α} {e : Nat → β} (a b c f : Nat) :
    SameRes SameShape (SkipConnection.slice2 ⟨s, d⟩ a b c f) (SkipConnection.slice2 ⟨s, e⟩ a b c f) := by
  unfold SkipConnection.slice2
  shp

theorem skip_jmjTp (hF : SameMod F F') {s d e} {v v' u u'} (wrt) (fd td db : Bool) (hv : SameOpt v v') (hu : SameVal u u') :
    SameProg SameOpt (SkipConnection.jmjTp F ⟨s, d⟩ v u wrt fd td db) (SkipConnection.jmjTp F' ⟨s, e⟩ v' u' wrt fd td db) := by
  unfold SkipConnection.jmjTp
  refine pbindE (passert _) fun _ => pbindT (skip_getVal hF hv) fun _ _ _ => pbindE (plift (by exact rrefl _)) fun _ =>
    pbindE (plift (by exact rrefl _)) fun l => pbindE (plift (by exact rrefl _)) fun _ => pbindO (plift (tailVal_same (by exact rfl) l)) fun _ _ ht =>
    pbindO (hF.jmjTp _ _ _ _ rfl ht hu) fun _ _ hj => ?_
  cases wrt
  · dsimp only
    obtain ⟨rfl, rfl⟩ | ⟨s, d, d', rfl, rfl⟩ | ⟨vs, ws, rfl, rfl, hl⟩ := SameVal.cases hu
    · exact pbind (R := fun _ _ => False) (pthrow _) fun _ _ h => h.elim
    · cases td <;> cases fd
      · exact pbindT (ppure rfl) fun _ _ _ => pbindO (hF.jmp _ rfl ht rfl) fun _ _ h1 => pbindT (pneed h1) fun _ _ _ => pbindT (plift transpose12) fun _ _ _ =>
          pbindO (hF.jmp _ rfl ht rfl) fun _ _ h2 => pbindT (pneed h2) fun _ _ _ => pbindT (plift transpose12) fun _ _ _ =>
          pbindT (pneed hj) fun _ _ _ => pbindT (plift blocks_same) fun _ _ _ => ppure rfl
      · exact pbindT (ppure rfl) fun _ _ _ => pbindT (plift diagEmbed) fun _ _ _ => pbindO (hF.jmp _ rfl ht rfl) fun _ _ h1 => pbindT (pneed h1) fun _ _ _ =>
          pbindT (plift transpose12) fun _ _ _ => pbindT (pneed hj) fun _ _ _ => pbindT (plift blocks_same) fun _ _ _ => ppure rfl
      · refine pbindT (ppure rfl) fun _ _ _ => ?_
        psk
      · refine pbindT (ppure rfl) fun _ _ _ => ?_
        psk
    · exact pbind (R := fun _ _ => False) (pthrow _) fun _ _ h => h.elim
  · dsimp only
    split <;> psk
  · psk

theorem skip_jTmjp (hF : SameMod F F') {s d e} {v v' u u'} (wrt) (fd td db : Bool) (hv : SameOpt v v') (hu : SameOpt u u') :
    SameProg SameVal (SkipConnection.jTmjp F ⟨s, d⟩ v u wrt fd td db) (SkipConnection.jTmjp F' ⟨s, e⟩ v' u' wrt fd td db) := by
  unfold SkipConnection.jTmjp
  refine pbindE (passert _) fun _ => pbindT (skip_getVal hF hv) fun s1 d1 e1 => ?_
  have key : ∀ (r : List Nat) (c : Nat → α) (c' : Nat → β) (fd : Bool),
      SameProg SameVal (do
        let l ← ((⟨s, d⟩ : Tensor α).numel0 : Res _)
        let tv ← (SkipConnection.tailVal (some ⟨s1, d1⟩) l : Res _)
        let n ← ((⟨r, c⟩ : Tensor α).dim 1 : Res _)
        let sub ← (if fd then Tensor.slice ⟨r, c⟩ 1 l n
          else do
            let n2 ← (⟨r, c⟩ : Tensor α).dim 2
            SkipConnection.slice2 ⟨r, c⟩ l n l n2 : Res _)
        let jTmjp ← F.jTmjp ⟨s, d⟩ tv (some sub) wrt fd td db
        match wrt with
        | .input => do
          let jTmjp ← (jTmjp.toTensor : Res _)
          match fd, td with
          | true, true => do
            let head ← (Tensor.slice ⟨r, c⟩ 1 0 l : Res _)
            let r ← (jTmjp.add head : Res _)
            pure (.tensor r)
          | true, false => do
            let head ← (Tensor.slice ⟨r, c⟩ 1 0 l : Res _)
            let head ← (head.diagEmbed : Res _)
            let r ← (jTmjp.add head : Res _)
            pure (.tensor r)
          | false, td => do
            let n2 ← ((⟨r, c⟩ : Tensor α).dim 2 : Res _)
            let ur ← (SkipConnection.slice2 ⟨r, c⟩ 0 l l n2 : Res _)
            let mjp ← Prog.need (← F.mjp ⟨s, d⟩ tv (some ur) wrt)
            let ll ← (SkipConnection.slice2 ⟨r, c⟩ l n 0 l : Res _)
            let llT ← (ll.transpose12 : Res _)
            let jTmpT ← Prog.need (← F.mjp ⟨s, d⟩ tv (some llT) wrt)
            let jTmp ← (jTmpT.transpose12 : Res _)
            let ul ← (SkipConnection.slice2 ⟨r, c⟩ 0 l 0 l : Res _)
            if td then do
              let d1 ← (einsum% "bii->bi" [mjp] : Res _)
              let d2 ← (einsum% "bii->bi" [jTmp] : Res _)
              let d3 ← (einsum% "bii->bi" [ul] : Res _)
              let r ← (jTmjp.add d1 : Res _)
              let r ← (r.add d2 : Res _)
              let r ← (r.add d3 : Res _)
              pure (.tensor r)
            else do
              let r ← (jTmjp.add mjp : Res _)
              let r ← (r.add jTmp : Res _)
              let r ← (r.add ul : Res _)
              pure (.tensor r)
        | .weight => pure jTmjp
        | .other => pure .none : Prog α (PyVal α)) (do
        let l ← ((⟨s, e⟩ : Tensor β).numel0 : Res _)
        let tv ← (SkipConnection.tailVal (some ⟨s1, e1⟩) l : Res _)
        let n ← ((⟨r, c'⟩ : Tensor β).dim 1 : Res _)
        let sub ← (if fd then Tensor.slice ⟨r, c'⟩ 1 l n
          else do
            let n2 ← (⟨r, c'⟩ : Tensor β).dim 2
            SkipConnection.slice2 ⟨r, c'⟩ l n l n2 : Res _)
        let jTmjp ← F'.jTmjp ⟨s, e⟩ tv (some sub) wrt fd td db
        match wrt with
        | .input => do
          let jTmjp ← (jTmjp.toTensor : Res _)
          match fd, td with
          | true, true => do
            let head ← (Tensor.slice ⟨r, c'⟩ 1 0 l : Res _)
            let r ← (jTmjp.add head : Res _)
            pure (.tensor r)
          | true, false => do
            let head ← (Tensor.slice ⟨r, c'⟩ 1 0 l : Res _)
            let head ← (head.diagEmbed : Res _)
            let r ← (jTmjp.add head : Res _)
            pure (.tensor r)
          | false, td => do
            let n2 ← ((⟨r, c'⟩ : Tensor β).dim 2 : Res _)
            let ur ← (SkipConnection.slice2 ⟨r, c'⟩ 0 l l n2 : Res _)
            let mjp ← Prog.need (← F'.mjp ⟨s, e⟩ tv (some ur) wrt)
            let ll ← (SkipConnection.slice2 ⟨r, c'⟩ l n 0 l : Res _)
            let llT ← (ll.transpose12 : Res _)
            let jTmpT ← Prog.need (← F'.mjp ⟨s, e⟩ tv (some llT) wrt)
            let jTmp ← (jTmpT.transpose12 : Res _)
            let ul ← (SkipConnection.slice2 ⟨r, c'⟩ 0 l 0 l : Res _)
            if td then do
              let d1 ← (einsum% "bii->bi" [mjp] : Res _)
              let d2 ← (einsum% "bii->bi" [jTmp] : Res _)
              let d3 ← (einsum% "bii->bi" [ul] : Res _)
              let r ← (jTmjp.add d1 : Res _)
              let r ← (r.add d2 : Res _)
              let r ← (r.add d3 : Res _)
              pure (.tensor r)
            else do
              let r ← (jTmjp.add mjp : Res _)
              let r ← (r.add jTmp : Res _)
              let r ← (r.add ul : Res _)
              pure (.tensor r)
        | .weight => pure jTmjp
        | .other => pure .none : Prog β (PyVal β)) := by
    intro r c c' fd
    refine pbindE (plift (by exact rrefl _)) fun l => pbindO (plift (tailVal_same (by exact rfl) l)) fun _ _ ht => pbindE (plift (by exact rrefl _)) fun n =>
      pbindT (plift ?_) fun _ _ _ => pbind (hF.jTmjp _ _ _ _ rfl ht rfl) fun _ _ hj => ?_
    · split
      · exact slice _ _ _
      · exact bindE rfl fun _ => slice2_same _ _ _ _
    cases wrt
    · refine pbindT (plift (toTensor_same hj)) fun _ _ _ => ?_
      cases fd
      · refine pbindE (plift (by exact rrefl _)) fun n2 => pbindT (plift (slice2_same _ _ _ _)) fun _ _ _ =>
          pbindO (hF.mjp _ rfl ht rfl) fun _ _ h1 => pbindT (pneed h1) fun _ _ _ => pbindT (plift (slice2_same _ _ _ _)) fun _ _ _ =>
          pbindT (plift transpose12) fun _ _ _ => pbindO (hF.mjp _ rfl ht rfl) fun _ _ h2 => pbindT (pneed h2) fun _ _ _ =>
          pbindT (plift transpose12) fun _ _ _ => pbindT (plift (slice2_same _ _ _ _)) fun _ _ _ => ?_
        cases td
        · exact pbindT (plift add) fun _ _ _ => pbindT (plift add) fun _ _ _ => pbindT (plift add) fun _ _ _ => ppure (sameVal_tensor rfl)
        · exact pbindT (plift (einsum _ _ rfl)) fun _ _ _ => pbindT (plift (einsum _ _ rfl)) fun _ _ _ => pbindT (plift (einsum _ _ rfl)) fun _ _ _ =>
            pbindT (plift add) fun _ _ _ => pbindT (plift add) fun _ _ _ => pbindT (plift add) fun _ _ _ => ppure (sameVal_tensor rfl)
      · cases td
        · exact pbindT (plift (slice _ _ _)) fun _ _ _ => pbindT (plift diagEmbed) fun _ _ _ => pbindT (plift add) fun _ _ _ => ppure (sameVal_tensor rfl)
        · exact pbindT (plift (slice _ _ _)) fun _ _ _ => pbindT (plift add) fun _ _ _ => ppure (sameVal_tensor rfl)
    · exact ppure hj
    · exact ppure sameVal_none
  sopt hu
  · exact key s1 _ _ true
  · exact key _ _ _ fd

theorem skip_same (hF : SameMod F F') (id : Nat) : SameMod (SkipConnection.mod id F) (SkipConnection.mod id F') where
  id := rfl
  nParams := hF.nParams
  params := hF.params
  forward hx := by
    obtain ⟨s, d, d', rfl, rfl⟩ := SameShape.cases hx
    exact skip_forward hF
  jacobian wrt hx hv := by
    obtain ⟨s, d, d', rfl, rfl⟩ := SameShape.cases hx
    dsimp only [SkipConnection.mod]
    rw [hF.nParams]
    exact skip_jacobian hF _ wrt hv
  jvp wrt hx hv hu := by
    obtain ⟨s, d, d', rfl, rfl⟩ := SameShape.cases hx
    obtain ⟨r, c, c', rfl, rfl⟩ := SameShape.cases hu
    exact skip_jvp hF wrt hv
  jmp wrt hx hv hu := by
    obtain ⟨s, d, d', rfl, rfl⟩ := SameShape.cases hx
    dsimp only [SkipConnection.mod]
    rw [hF.nParams]
    exact skip_jmp hF _ wrt hv hu
  jmjTp wrt fd td db hx hv hu := by
    obtain ⟨s, d, d', rfl, rfl⟩ := SameShape.cases hx
    exact skip_jmjTp hF wrt fd td db hv hu
  vjp wrt hx hv hu := by
    obtain ⟨s, d, d', rfl, rfl⟩ := SameShape.cases hx
    obtain ⟨r, c, c', rfl, rfl⟩ := SameShape.cases hu
    exact skip_vjp hF wrt hv
  mjp wrt hx hv hu := by
    obtain ⟨s, d, d', rfl, rfl⟩ := SameShape.cases hx
    dsimp only [SkipConnection.mod]
    rw [hF.nParams]
    exact skip_mjp hF _ wrt hv hu
  jTmjp wrt fd td db hx hv hu := by
    obtain ⟨s, d, d', rfl, rfl⟩ := SameShape.cases hx
    exact skip_jTmjp hF wrt fd td db hv hu

section
variable [Sub α] [Neg α] [Div α] [NatCast α] [LT α] [DecidableLT α] [Trans α]
variable [Sub β] [Neg β] [Div β] [NatCast β] [LT β] [DecidableLT β] [Trans β]

mutual
theorem sameCode : ∀ {m : Mod α} {m' : Mod β}, SameCode m m' → SameMod m m'
  | _, _, .linear id wId bId i o => by
    refine toMod_same _ _ _ fun s s' hs => ?_
    obtain ⟨r, d, d', h1, h2⟩ := SameShape.cases (hs.param wId)
    rw [h1, h2]
    refine linear_layer _ ?_
    cases bId
    · trivial
    · exact hs.param _
  | _, _, .relu id => toMod_same _ _ _ fun _ _ _ => activation_layer _ _ _ _ fun _ _ _ _ _ _ => rfl
  | _, _, .sigmoid id => toMod_same _ _ _ fun _ _ _ => activation_layer _ _ _ _ fun _ _ _ _ _ _ => rfl
  | _, _, .tanh id => toMod_same _ _ _ fun _ _ _ => activation_layer _ _ _ _ fun _ _ _ _ _ _ => rfl
  | _, _, .sinusoidal id => toMod_same _ _ _ fun _ _ _ => activation_layer _ _ _ _ fun _ _ _ _ _ _ => rfl
  | _, _, .truncExp id => toMod_same _ _ _ fun _ _ _ => activation_layer _ _ _ _ fun _ _ _ _ _ _ => rfl
  | _, _, .softplus _ _ _ _ id => toMod_same _ _ _ fun _ _ _ => activation_layer _ _ _ _ fun _ _ _ _ _ _ => rfl
  | _, _, .custom _ _ _ _ id => toMod_same _ _ _ fun _ _ _ => activation_layer _ _ _ _ fun _ _ _ _ _ _ => rfl
  | _, _, .flatten id => toMod_same _ _ _ fun _ _ _ => resh_layer flatten_forward
  | _, _, .reshape dims id => toMod_same _ _ _ fun _ _ _ => resh_layer (reshape_forward dims)
  | _, _, .l2norm eps eps' id => toMod_same _ _ _ fun _ _ _ => l2_layer eps eps'
  | _, _, .conv cfg id wId bId => by
    refine toMod_same _ _ _ fun s s' hs => ?_
    obtain ⟨r, d, d', h1, h2⟩ := SameShape.cases (hs.param wId)
    rw [h1, h2]
    refine conv_layer _ ?_
    split
    · exact hs.param _
    · trivial
  | _, _, .upsample f id => toMod_same _ _ _ fun _ _ _ => up_layer f
  | _, _, .seq id b h => seq_same id b (sameCodes h)
  | _, _, .skip id fid b h => skip_same (seq_same fid b (sameCodes h)) id
theorem sameCodes : ∀ {ms : List (Mod α)} {ms' : List (Mod β)}, SameCodes ms ms' → SameMods ms ms'
  | _, _, .nil => .nil
  | _, _, .cons h hs => .cons (sameCode h) (sameCodes hs)
end
end

end Shp
end NNJ
