import Verif.Proofs.ShapesSkip

/-!
# Helper lemmas: the shapes and exceptions of likelihoods and weight access, histories of uses
-/

namespace NNJ
namespace Shp
open Tensor

variable {α β : Type}

section weights
variable {m : Mod α} {m' : Mod β}

theorem getWeight_same (hm : SameMod m m') : SameProg SameShape m.getWeight m'.getWeight := by
  intro s s' hs
  refine ⟨?_, hs⟩
  show SameRes SameShape (Tensor.cat 0 _) (Tensor.cat 0 _)
  have : m.parameters = m'.parameters := by
    unfold Mod.parameters
    rw [hm.params]
  rw [this]
  refine cat 0 ?_
  induction m'.parameters with
  | nil => exact .nil
  | cons i is ih =>
    refine .cons ?_ ih
    show [(s.param i).numel] = [(s'.param i).numel]
    unfold Tensor.numel
    rw [show (s.param i).shape = (s'.param i).shape from hs.param i]

theorem setLoop_same {v : Tensor α} {v' : Tensor β} (hv : SameShape v v') :
    ∀ (is : List Nat) (p : Nat), SameProg Eq (setWeightLoop v is p) (setWeightLoop v' is p)
  | [], _ => fun _ _ hs => ⟨rfl, hs⟩
  | i :: is, p => by
    intro s s' hs
    have hi : (s.param i).shape = (s'.param i).shape := hs.param i
    have hn : (s.param i).numel = (s'.param i).numel := by
      unfold Tensor.numel
      rw [hi]
    have hv' : v.numel = v'.numel := by
      unfold Tensor.numel
      rw [show v.shape = v'.shape from hv]
    unfold setWeightLoop
    dsimp only
    rw [hn, hv']
    split
    · refine setLoop_same hv is _ _ _ ⟨fun j => ?_, hs.fmaps, hs.hooks⟩
      dsimp only
      split
      · exact hi
      · exact hs.param j
    · exact ⟨rfl, hs⟩

theorem setWeight_same (hm : SameMod m m') {v : Tensor α} {v' : Tensor β} (hv : SameShape v v') : SameProg Eq (m.setWeight v) (m'.setWeight v') := by
  unfold Mod.setWeight Mod.parameters
  rw [hm.params]
  exact setLoop_same hv _ _

end weights

section lik
variable [Zero α] [One α] [Add α] [Sub α] [Neg α] [Mul α] [Div α] [NatCast α] [Trans α]
variable [Zero β] [One β] [Add β] [Sub β] [Neg β] [Mul β] [Div β] [NatCast β] [Trans β]
variable {m : Mod α} {m' : Mod β}

omit [Zero α] [One α] [Add α] [Sub α] [Neg α] [Mul α] [Div α] [NatCast α] [Trans α]
  [Zero β] [One β] [Add β] [Sub β] [Neg β] [Mul β] [Div β] [NatCast β] [Trans β] in
theorem checkTarget_same {s d e} {t : Option (Tensor α)} {t' : Option (Tensor β)} (h : SameOpt t t') :
    SameRes SameShape (LogLik.checkTarget ⟨s, d⟩ t) (LogLik.checkTarget ⟨s, e⟩ t') := by
  sopt h
  · exact err _
  · exact bindE rfl fun _ => pure' rfl

theorem aggForward_same (a : LogLik.AggArg) {s d e} : SameRes SameOpt (LogLik.aggForward a (⟨s, d⟩ : Tensor α)) (LogLik.aggForward a (⟨s, e⟩ : Tensor β)) := by
  cases a <;> first | exact ok rfl | exact ok trivial

theorem mean0_same {s d e} : SameRes SameShape (LogLik.mean0 (⟨s, d⟩ : Tensor α)) (LogLik.mean0 (⟨s, e⟩ : Tensor β)) := by
  unfold LogLik.mean0
  exact bindE rfl fun _ => bindT sum0 fun _ _ _ => pure' rfl

theorem aggValue_same (a : LogLik.AggArg) {v : PyVal α} {v' : PyVal β} (h : SameVal v v') : SameRes SameVal (LogLik.aggValue a v) (LogLik.aggValue a v') := by
  cases a
  · exact ok sameVal_none
  · exact ok h
  · exact bindT (toTensor_same h) fun _ _ _ => map sum0 fun _ _ h => sameVal_tensor h
  · exact bindT (toTensor_same h) fun _ _ _ => map mean0_same fun _ _ h => sameVal_tensor h
  · exact ok sameVal_none

theorem gaussianForward_same (hm : SameMod m m') (cfg) {s d e t t'} (ht : SameOpt t t') :
    SameProg SameOpt (LogLik.gaussianForward cfg m ⟨s, d⟩ t) (LogLik.gaussianForward cfg m' ⟨s, e⟩ t') :=
  pbindE (plift (by exact rrefl _)) fun _ => pbindT (call_same hm rfl) fun _ _ _ => pbindT (plift (checkTarget_same ht)) fun _ _ _ =>
    pbindT (plift sub) fun _ _ _ => pbindT (plift (reshapeInfer _ _)) fun _ _ _ => pbindT (plift sum1) fun _ _ _ => plift (aggForward_same _)

theorem gaussianGradient_same (hm : SameMod m m') (cfg) {s d e t t'} (wrt) (ht : SameOpt t t') :
    SameProg SameVal (LogLik.gaussianGradient cfg m ⟨s, d⟩ t wrt) (LogLik.gaussianGradient cfg m' ⟨s, e⟩ t' wrt) :=
  pbindE (plift (by exact rrefl _)) fun _ => pbindT (call_same hm rfl) fun _ _ _ => pbindT (plift (checkTarget_same ht)) fun _ _ _ =>
    pbindT (plift sub) fun _ _ _ => pbindT (plift (reshapeInfer _ _)) fun _ _ _ => pbindO (hm.vjp _ rfl rfl rfl) fun _ _ h =>
    plift (aggValue_same _ (sameVal_ofOption h))

theorem gaussianGgn_same (hm : SameMod m m') (cfg) {s d e} (wrt) :
    SameProg SameVal (LogLik.gaussianGgn cfg m ⟨s, d⟩ wrt) (LogLik.gaussianGgn cfg m' ⟨s, e⟩ wrt) :=
  pbindE (plift (by exact rrefl _)) fun _ => pbindT (call_same hm rfl) fun _ _ _ => pbindT (plift (reshapeInfer _ _)) fun _ _ _ =>
    pbind (hm.jTmjp _ _ _ _ rfl rfl rfl) fun _ _ h => plift (aggValue_same _ h)

theorem binaryForward_same (hm : SameMod m m') (cfg) {s d e t t'} (ht : SameOpt t t') :
    SameProg SameOpt (LogLik.binaryForward cfg m ⟨s, d⟩ t) (LogLik.binaryForward cfg m' ⟨s, e⟩ t') :=
  pbindE (plift (by exact rrefl _)) fun _ => pbindT (call_same hm rfl) fun _ _ _ => pbindT (plift (checkTarget_same ht)) fun _ _ _ =>
    pbindT (plift sub) fun _ _ _ => pbindT (plift mul) fun _ _ _ => pbindT (plift mul) fun _ _ _ => pbindT (plift add) fun _ _ _ =>
    pbindT (plift (reshapeInfer _ _)) fun _ _ _ => pbindT (plift sum1) fun _ _ _ => plift (aggForward_same _)

theorem binaryGradient_same (hm : SameMod m m') (cfg) {s d e t t'} (wrt) (ht : SameOpt t t') :
    SameProg SameVal (LogLik.binaryGradient cfg m ⟨s, d⟩ t wrt) (LogLik.binaryGradient cfg m' ⟨s, e⟩ t' wrt) :=
  pbindE (plift (by exact rrefl _)) fun _ => pbindT (call_same hm rfl) fun _ _ _ => pbindT (plift (checkTarget_same ht)) fun _ _ _ =>
    pbindT (plift sub) fun _ _ _ => pbindT (plift (reshapeInfer _ _)) fun _ _ _ => pbindO (hm.vjp _ rfl rfl rfl) fun _ _ h =>
    plift (aggValue_same _ (sameVal_ofOption h))

theorem binaryGgn_same (hm : SameMod m m') (cfg) {s d e} (wrt) :
    SameProg SameVal (LogLik.binaryGgn cfg m ⟨s, d⟩ wrt) (LogLik.binaryGgn cfg m' ⟨s, e⟩ wrt) :=
  pbindE (plift (by exact rrefl _)) fun _ => pbindT (call_same hm rfl) fun _ _ _ => pbindT (plift (reshapeInfer _ _)) fun _ _ _ =>
    pbind (hm.jTmjp _ _ _ _ rfl rfl rfl) fun _ _ h => plift (aggValue_same _ h)

theorem lastSum_same (f : α → α) (f' : β → β) {s d e} : SameRes SameShape (LogLik.lastSum f (⟨s, d⟩ : Tensor α)) (LogLik.lastSum f' (⟨s, e⟩ : Tensor β)) := by
  unfold LogLik.lastSum
  dsimp only
  split <;> rfl

theorem bernoulliProb_same {s d e} : SameRes SameShape (LogLik.bernoulliProb (⟨s, d⟩ : Tensor α)) (LogLik.bernoulliProb (⟨s, e⟩ : Tensor β)) := by
  unfold LogLik.bernoulliProb
  exact bindT (lastSum_same _ _) fun _ _ _ => zipWithB _ _

theorem bernoulliForward_same (hm : SameMod m m') (cfg) {s d e t t'} (ht : SameOpt t t') :
    SameProg SameOpt (LogLik.bernoulliForward cfg m ⟨s, d⟩ t) (LogLik.bernoulliForward cfg m' ⟨s, e⟩ t') :=
  pbindE (plift (by exact rrefl _)) fun _ => pbindT (call_same hm rfl) fun _ _ _ => pbindT (plift (checkTarget_same ht)) fun _ _ _ =>
    pbindT (plift (lastSum_same _ _)) fun _ _ _ => pbindT (plift sub) fun _ _ _ => pbindT (plift mul) fun _ _ _ =>
    pbindT (plift (reshapeInfer _ _)) fun _ _ _ => pbindT (plift sum1) fun _ _ _ => plift (aggForward_same _)

theorem bernoulliGradient_same (hm : SameMod m m') (cfg) {s d e t t'} (wrt) (ht : SameOpt t t') :
    SameProg SameVal (LogLik.bernoulliGradient cfg m ⟨s, d⟩ t wrt) (LogLik.bernoulliGradient cfg m' ⟨s, e⟩ t' wrt) :=
  pbindE (plift (by exact rrefl _)) fun _ => pbindT (call_same hm rfl) fun _ _ _ => pbindT (plift (checkTarget_same ht)) fun _ _ _ =>
    pbindT (plift bernoulliProb_same) fun _ _ _ => pbindT (plift sub) fun _ _ _ => pbindT (plift (reshapeInfer _ _)) fun _ _ _ =>
    pbindO (hm.vjp _ rfl rfl rfl) fun _ _ h => plift (aggValue_same _ (sameVal_ofOption h))

theorem bernoulliHessian_same (b : Nat) {s d e} : SameRes SameShape (LogLik.bernoulliHessian b (⟨s, d⟩ : Tensor α)) (LogLik.bernoulliHessian b (⟨s, e⟩ : Tensor β)) := by
  unfold LogLik.bernoulliHessian
  dsimp only
  split
  · refine bindE rfl fun c => bindE rfl fun n => ?_
    split
    · exact err _
    · refine bindT bernoulliProb_same fun _ _ _ => bindT diagEmbed fun _ _ _ => bindT (einsum _ _ rfl) fun _ _ _ => bindT sub fun _ _ _ => ?_
      split
      · exact reshape _
      · exact err _
  · exact err _

theorem bernoulliGgn_same (hm : SameMod m m') (cfg) {s d e} (wrt) :
    SameProg SameVal (LogLik.bernoulliGgn cfg m ⟨s, d⟩ wrt) (LogLik.bernoulliGgn cfg m' ⟨s, e⟩ wrt) :=
  pbindE (plift (by exact rrefl _)) fun _ => pbindT (call_same hm rfl) fun _ _ _ => pbindT (plift (bernoulliHessian_same _)) fun _ _ _ =>
    pbind (hm.jTmjp _ _ _ _ rfl rfl rfl) fun _ _ h => plift (aggValue_same _ h)

theorem use_same (hm : SameMod m m') {c : Use α} {c' : Use β} (h : SameUse c c') : SameProg SameVal (c.run m) (c'.run m') := by
  cases h with
  | call h => exact pbind (call_same hm h) fun _ _ h => ppure (sameVal_tensor h)
  | forward h => exact pbind (hm.forward h) fun _ _ h => ppure (sameVal_tensor h)
  | jacobian w h1 h2 => exact pbind (hm.jacobian w h1 h2) fun _ _ h => ppure (sameVal_ofOption h)
  | jvp w h1 h2 h3 => exact pbind (hm.jvp w h1 h2 h3) fun _ _ h => ppure (sameVal_ofOption h)
  | jmp w h1 h2 h3 => exact pbind (hm.jmp w h1 h2 h3) fun _ _ h => ppure (sameVal_ofOption h)
  | jmjTp w fd td db h1 h2 h3 => exact pbind (hm.jmjTp w fd td db h1 h2 h3) fun _ _ h => ppure (sameVal_ofOption h)
  | vjp w h1 h2 h3 => exact pbind (hm.vjp w h1 h2 h3) fun _ _ h => ppure (sameVal_ofOption h)
  | mjp w h1 h2 h3 => exact pbind (hm.mjp w h1 h2 h3) fun _ _ h => ppure (sameVal_ofOption h)
  | jTmjp w fd td db h1 h2 h3 => exact hm.jTmjp w fd td db h1 h2 h3
  | getWeight => exact pbind (getWeight_same hm) fun _ _ h => ppure (sameVal_tensor h)
  | setWeight h => exact pbindE (setWeight_same hm h) fun _ => ppure sameVal_none
  | gaussianForward c h1 h2 =>
    obtain ⟨_, _, _, rfl, rfl⟩ := SameShape.cases h1
    exact pbindO (gaussianForward_same hm c h2) fun _ _ h => ppure (sameVal_ofOption h)
  | gaussianGradient c w h1 h2 =>
    obtain ⟨_, _, _, rfl, rfl⟩ := SameShape.cases h1
    exact gaussianGradient_same hm c w h2
  | gaussianGgn c w h1 =>
    obtain ⟨_, _, _, rfl, rfl⟩ := SameShape.cases h1
    exact gaussianGgn_same hm c w
  | binaryForward c h1 h2 =>
    obtain ⟨_, _, _, rfl, rfl⟩ := SameShape.cases h1
    exact pbindO (binaryForward_same hm c h2) fun _ _ h => ppure (sameVal_ofOption h)
  | binaryGradient c w h1 h2 =>
    obtain ⟨_, _, _, rfl, rfl⟩ := SameShape.cases h1
    exact binaryGradient_same hm c w h2
  | binaryGgn c w h1 =>
    obtain ⟨_, _, _, rfl, rfl⟩ := SameShape.cases h1
    exact binaryGgn_same hm c w
  | bernoulliForward c h1 h2 =>
    obtain ⟨_, _, _, rfl, rfl⟩ := SameShape.cases h1
    exact pbindO (bernoulliForward_same hm c h2) fun _ _ h => ppure (sameVal_ofOption h)
  | bernoulliGradient c w h1 h2 =>
    obtain ⟨_, _, _, rfl, rfl⟩ := SameShape.cases h1
    exact bernoulliGradient_same hm c w h2
  | bernoulliGgn c w h1 =>
    obtain ⟨_, _, _, rfl, rfl⟩ := SameShape.cases h1
    exact bernoulliGgn_same hm c w

theorem uses_same {h : List (Mod α × Use α)} {h' : List (Mod β × Use β)}
    (hh : List.Forall₂ (fun a b => SameMod a.1 b.1 ∧ SameUse a.2 b.2) h h') : ∀ {s s'}, SameStore s s' →
      List.Forall₂ (SameRes SameVal) (runUses h s).1 (runUses h' s').1 ∧ SameStore (runUses h s).2 (runUses h' s').2 := by
  induction hh with
  | nil => exact fun hs => ⟨.nil, hs⟩
  | cons hab _ ih =>
    intro s s' hs
    obtain ⟨h1, h2⟩ := use_same hab.1 hab.2 s s' hs
    obtain ⟨h3, h4⟩ := ih h2
    exact ⟨.cons h1 h3, h4⟩

end lik
end Shp
end NNJ
