import Verif.Proofs.ConvModes
import Verif.Proofs.DerivAct
import Verif.Props.ConvGen

/-!
# C63: the constructor arguments `padding_mode` and `padding="same"` of Conv2d

`nnj.Conv2d` accepts every `padding_mode` of `nn.Conv2d`, but its products are written for `padding_mode="zeros"`.  Paddings given by a string make the
constructor fail.
-/

namespace NNJ
namespace Props
open Tensor Matrix Prog

section
variable (g : GConv) (m : PadMode) (id wId : Nat) (bId : Option Nat) {st : Store ℝ} {B : Nat} {X : Fin B → Fin (g.c1 * g.h1 * g.w1) → ℝ} {x : Tensor ℝ}

/-- the value of the bias attribute -/
private noncomputable def mbias (bId : Option Nat) (st : Store ℝ) : Option (Tensor ℝ) :=
  if bId.isSome then some (st.param (bId.getD 0)) else none

private theorem mbias_shape (hw : g.Params wId bId st) : ∀ t ∈ mbias bId st, t.shape = [g.c2] := by
  cases bId with
  | none => simp [mbias]
  | some b => intro t ht; simp [mbias] at ht; subst ht; exact hw.bias b rfl

/-- The constructor.  Numbers as padding and a known mode give a module object, which for the mode "zeros" is the one of the other properties; a string as padding
never does: TypeError for "same" and "valid" with otherwise correct arguments. -/
theorem C63_init (cfg : Conv2d.Cfg) (hG : cfg.groups ≠ 0 ∧ cfg.inChannels % cfg.groups = 0 ∧ cfg.outChannels % cfg.groups = 0) (hs : cfg.stride = (1, 1))
    (bId : Nat) :
    (∀ ph pw, Conv2d.modeInit cfg (.sizes ph pw) (some m) id wId bId = .ok (Conv2d.modeMod m { cfg with padding := (ph, pw) } id wId bId : Mod ℝ)) ∧
    (∀ ph pw, Conv2d.modeInit cfg (.sizes ph pw) (some .zeros) id wId bId = (Conv2d.init { cfg with padding := (ph, pw) } id wId bId : Res (Mod ℝ))) ∧
    (∀ p, p = .same ∨ p = .valid → (Conv2d.modeInit cfg p (some m) id wId bId : Res (Mod ℝ)) = .error .type) ∧
    (∀ m, (Conv2d.modeInit cfg .otherString m id wId bId : Res (Mod ℝ)) = .error .value) ∧
    ∀ p, (Conv2d.modeInit cfg p none id wId bId : Res (Mod ℝ)) = .error .value := by
  have h0 : ¬ (cfg.groups = 0 ∨ cfg.inChannels % cfg.groups ≠ 0 ∨ cfg.outChannels % cfg.groups ≠ 0) := by omega
  refine ⟨fun ph pw => ?_, fun ph pw => ?_, fun p hp => ?_, fun m => ?_, fun p => ?_⟩
  · simp only [Conv2d.modeInit, if_neg h0, hs, ne_eq, not_true_eq_false, if_false]
  · simp only [Conv2d.modeInit, Conv2d.init, if_neg h0, hs, ne_eq, not_true_eq_false, if_false]
    rfl
  · rcases hp with rfl | rfl <;> simp only [Conv2d.modeInit, if_neg h0, hs, ne_eq, not_true_eq_false, if_false]
  · simp only [Conv2d.modeInit, if_neg h0]
  · cases p <;> simp only [Conv2d.modeInit, if_neg h0]

/-- With a stride or wrong groups the constructor raises ValueError, except that "valid" (without wrong groups) remains a TypeError. -/
theorem C63_stride (cfg : Conv2d.Cfg) (m : PadMode) (bId : Nat) :
    (cfg.groups = 0 ∨ cfg.inChannels % cfg.groups ≠ 0 ∨ cfg.outChannels % cfg.groups ≠ 0 →
      ∀ p m, (Conv2d.modeInit cfg p m id wId bId : Res (Mod ℝ)) = .error .value) ∧
    (cfg.stride ≠ (1, 1) → ∀ p, p ≠ .valid → (Conv2d.modeInit cfg p (some m) id wId bId : Res (Mod ℝ)) = .error .value) ∧
    (cfg.groups ≠ 0 ∧ cfg.inChannels % cfg.groups = 0 ∧ cfg.outChannels % cfg.groups = 0 →
      (Conv2d.modeInit cfg .valid (some m) id wId bId : Res (Mod ℝ)) = .error .type) := by
  refine ⟨fun h p m => ?_, fun hs p hp => ?_, fun hG => ?_⟩
  · simp only [Conv2d.modeInit, if_pos h]
  · cases p <;> simp only [Conv2d.modeInit] <;> split_ifs <;> first | rfl | exact (hp rfl).elim
  · have h0 : ¬ (cfg.groups = 0 ∨ cfg.inChannels % cfg.groups ≠ 0 ∨ cfg.outChannels % cfg.groups ≠ 0) := by omega
    simp only [Conv2d.modeInit, if_neg h0]

/-- Whatever the other arguments, a string as padding gives no module object. -/
theorem C63_string (cfg : Conv2d.Cfg) (p : Conv2d.PaddingArg) (hp : p = .same ∨ p = .valid ∨ p = .otherString) (m : Option PadMode) (bId : Nat) (M : Mod ℝ) :
    Conv2d.modeInit cfg p m id wId bId ≠ .ok M := by
  intro h
  rcases hp with rfl | rfl | rfl <;> cases m <;> simp only [Conv2d.modeInit] at h <;> split_ifs at h <;> cases h

/-- `forward` in mode `m` is the cross-correlation of the image padded in that mode: position `k` of a padded row holds the pixel `PadMode.Fills` says.  Its
derivative is `modeJ`, the sum of the kernel entries that read the pixel. -/
theorem C63_forward (ha : g.Accepts m) (hw : g.Params wId bId st) (hx : IsBatch x B [g.c1, g.h1, g.w1] (g.c1 * g.h1 * g.w1) X) :
    (∃ t Y, Returns ((g.modeMod m id wId bId).forward x) st t ∧ IsBatch t B [g.c2, g.h2, g.w2] (g.c2 * g.h2 * g.w2) Y ∧
      ∀ b (o : Fin g.c2) (r : Fin g.h2) (s : Fin g.w2), Y b (pix o r s) =
        (∑ c : Fin g.c1, ∑ i : Fin g.kh, ∑ j : Fin g.kw,
          padAt (fun (u : Fin g.h1) (v : Fin g.w1) => X b (pix c u v)) (g.srcR m r i) (g.srcC m s j) * g.ker (st.param wId).data o c i j) +
        match bId with
        | some β => (st.param β).data o
        | none => 0) ∧
    (∀ (r : Fin g.h2) (i : Fin g.kh), m.Fills g.h1 ((((r : Nat) + i * g.dh : Nat) : Int) - g.ph) (g.srcR m r i)) ∧
    (∀ (s : Fin g.w2) (j : Fin g.kw), m.Fills g.w1 ((((s : Nat) + j * g.dw : Nat) : Int) - g.pw) (g.srcC m s j)) ∧
    ∀ z, HasFDerivAt (forwardMap (g.modeMod m id wId bId) st [g.c1, g.h1, g.w1]) (linMap (g.modeJ m (st.param wId).data)) z := by
  refine ⟨?_, fun r i => PadMode.src_fills g.ph1 (GConv.accepts_iff.1 ha).1 (g.tapR r.2 i.2), fun s j => PadMode.src_fills g.pw1 (GConv.accepts_iff.1 ha).2 (g.tapC s.2 j.2), fun z => ?_⟩
  · obtain ⟨t, ht, hT⟩ := GConv.mode_specG (bId := bId) hw.weight ha (mbias_shape g wId bId hw) hx
    refine ⟨t, _, ht, hT, fun b o r s => ?_⟩
    simp only [GConv.modeF, chan_pix, row_pix, col_pix]
    congr 1
    cases bId with
    | none => simp [mbias, biasAt]
    | some β => simp only [mbias, biasAt, Option.isSome_some, if_true, Option.getD_some]; rw [get1 (hw.bias β rfl)]
  · have e : forwardMap (g.modeMod m id wId bId) st [g.c1, g.h1, g.w1]
        = fun (z : Fin (g.c1 * g.h1 * g.w1) → ℝ) => linMap (g.modeJ m (st.param wId).data) z + fun k => biasAt (mbias bId st) (chan k : Fin g.c2) := by
      funext z i
      obtain ⟨t, ht, hT⟩ := GConv.mode_specG (bId := bId) hw.weight ha (mbias_shape g wId bId hw) (ofSample_isBatch (s := [g.c1, g.h1, g.w1]) z)
      have ht' : ((g.modeMod m id wId bId).forward (ofSample [g.c1, g.h1, g.w1] z) st).1 = .ok t := ht
      simp only [forwardMap, ht']
      have := hT.2 0 i
      simp only [Fin.val_zero, Nat.zero_mul, Nat.zero_add] at this
      rw [this, GConv.modeF_eq]
      rfl
    rw [e]
    exact ((linMap _).hasFDerivAt).add_const _

/-- The products know nothing of the mode: with `val` given, or with `val=None` and a padding that `F.pad` accepts, every method returns (or raises) what it
does for `padding_mode="zeros"`. -/
theorem C63_products (val : Option (Tensor ℝ))
    (hval : val = none → g.Accepts m ∧ g.Params wId bId st ∧ ∃ B X, IsBatch x B [g.c1, g.h1, g.w1] (g.c1 * g.h1 * g.w1) X) :
    (∀ wrt, (g.modeMod m id wId bId).jacobian x val wrt st = (g.mod id wId bId).jacobian x val wrt st) ∧
    (∀ v wrt, (g.modeMod m id wId bId).jvp x val v wrt st = (g.mod id wId bId).jvp x val v wrt st) ∧
    (∀ A wrt, (g.modeMod m id wId bId).jmp x val A wrt st = (g.mod id wId bId).jmp x val A wrt st) ∧
    (∀ A wrt fd td db, (g.modeMod m id wId bId).jmjTp x val A wrt fd td db st = (g.mod id wId bId).jmjTp x val A wrt fd td db st) ∧
    (∀ v wrt, (g.modeMod m id wId bId).vjp x val v wrt st = (g.mod id wId bId).vjp x val v wrt st) ∧
    (∀ A wrt, (g.modeMod m id wId bId).mjp x val A wrt st = (g.mod id wId bId).mjp x val A wrt st) ∧
    (∀ A wrt fd td db, (g.modeMod m id wId bId).jTmjp x val A wrt fd td db st = (g.mod id wId bId).jTmjp x val A wrt fd td db st) := by
  obtain ⟨y, y', e, e', hs⟩ : ∃ y y', Conv2d.modeVal m (g.cfg bId) (st.param wId) (mbias bId st) x val = .ok y ∧
      Conv2d.getVal (g.cfg bId) (st.param wId) (mbias bId st) x val = .ok y' ∧ y.shape = y'.shape := by
    cases val with
    | some v => exact ⟨v, v, rfl, rfl, rfl⟩
    | none =>
      obtain ⟨ha, hw, B, X, hx⟩ := hval rfl
      obtain ⟨t, ht, hT⟩ := GConv.mode_specG (bId := bId) hw.weight ha (mbias_shape g wId bId hw) hx
      obtain ⟨t', ht', hT'⟩ := GConv.forward_specG (bId := bId) hw.weight (mbias_shape g wId bId hw) hx
      exact ⟨t, t', ht, ht', hT.1.trans hT'.1.symm⟩
  have hj : ∀ wrt, Conv2d.modeJacobian m (g.cfg bId) (st.param wId) (mbias bId st) x val wrt
      = Conv2d.jacobian (g.cfg bId) (st.param wId) (mbias bId st) x val wrt := by
    intro wrt
    rw [Conv2d.modeJacobian, e, Res.bind_ok, Conv2d.jacobian_congr hs]
    simp only [Conv2d.jacobian]
    rw [e']
    rfl
  refine ⟨fun wrt => Prod.ext (hj wrt) rfl, fun v wrt => rfl, fun A wrt => ?_, fun A wrt fd td db => ?_, fun v wrt => Prod.ext ?_ rfl,
    fun A wrt => Prod.ext ?_ rfl, fun A wrt fd td db => Prod.ext ?_ rfl⟩
  · cases A with
    | none => exact Prod.ext (hj wrt) rfl
    | some A => rfl
  · have : ∀ A, (do let val ← Conv2d.modeVal m (g.cfg bId) (st.param wId) (mbias bId st) x val
                    Conv2d.jmjTp (g.cfg bId) (st.param wId) (mbias bId st) x (some val) A wrt fd td db)
        = Conv2d.jmjTp (g.cfg bId) (st.param wId) (mbias bId st) x val A wrt fd td db := by
      intro A
      rw [e, Res.bind_ok]
      simp only [Conv2d.jmjTp]
      rw [e']
      rfl
    refine Prod.ext ?_ rfl
    exact congrArg (fun f : Option (Tensor ℝ) → Res (Option (Tensor ℝ)) => _ >>= f) (funext this)
  · show (do let val ← Conv2d.modeVal m (g.cfg bId) (st.param wId) (mbias bId st) x val
             Conv2d.vjp (g.cfg bId) (st.param wId) (mbias bId st) x (some val) v wrt) = Conv2d.vjp (g.cfg bId) (st.param wId) (mbias bId st) x val v wrt
    rw [e, Res.bind_ok, Conv2d.vjp_congr hs]
    simp only [Conv2d.vjp]
    rw [e']
    rfl
  · show (do let val ← Conv2d.modeVal m (g.cfg bId) (st.param wId) (mbias bId st) x val
             Conv2d.mjp (g.cfg bId) (st.param wId) (mbias bId st) x (some val) A wrt) = Conv2d.mjp (g.cfg bId) (st.param wId) (mbias bId st) x val A wrt
    rw [e, Res.bind_ok, Conv2d.mjp_congr hs]
    simp only [Conv2d.mjp]
    rw [e']
    rfl
  · have : (do let val ← Conv2d.modeVal m (g.cfg bId) (st.param wId) (mbias bId st) x val
               Conv2d.jTmjp (g.cfg bId) (st.param wId) (mbias bId st) x (some val) A wrt fd td db)
        = Conv2d.jTmjp (g.cfg bId) (st.param wId) (mbias bId st) x val A wrt fd td db := by
      rw [e, Res.bind_ok, Conv2d.jTmjp_congr hs]
      simp only [Conv2d.jTmjp]
      rw [e']
      rfl
    exact congrArg (fun r : Res (Option (Tensor ℝ)) => r >>= fun r => pure (PyVal.ofOption r)) this

/-- When `F.pad` refuses the padding (reflect: not smaller than the image; circular: larger than the image), `forward` raises, and so does every product with
`val=None` except the ones that are never implemented anyway (`jvp`, `jmp` with a matrix). -/
theorem C63_refused (hm : m ≠ .zeros) (ha : ¬ g.Accepts m) (hx : x.shape = [B, g.c1, g.h1, g.w1]) :
    Raises ((g.modeMod m id wId bId).forward x) ∧
    (∀ wrt, Raises ((g.modeMod m id wId bId).jacobian x none wrt)) ∧
    (∀ v wrt, Raises ((g.modeMod m id wId bId).vjp x none v wrt)) ∧
    (∀ A wrt, Raises ((g.modeMod m id wId bId).mjp x none A wrt)) ∧
    (∀ A wrt fd td db, Raises ((g.modeMod m id wId bId).jTmjp x none A wrt fd td db)) := by
  have e : ∀ st, Conv2d.modeForward m (g.cfg bId) (st.param wId) (mbias bId st) x = .error .shape := fun st => GConv.mode_refused hx hm ha
  have e2 : ∀ st, Conv2d.modeVal m (g.cfg bId) (st.param wId) (mbias bId st) x none = .error .shape := e
  refine ⟨fun st => ⟨.shape, st, Prod.ext (e st) rfl⟩, fun wrt st => ⟨.shape, st, Prod.ext ?_ rfl⟩, fun v wrt st => ⟨.shape, st, Prod.ext ?_ rfl⟩,
    fun A wrt st => ⟨.shape, st, Prod.ext ?_ rfl⟩, fun A wrt fd td db st => ⟨.shape, st, Prod.ext ?_ rfl⟩⟩
  · show (do let val ← Conv2d.modeVal m (g.cfg bId) (st.param wId) (mbias bId st) x none
             Conv2d.jacobian (g.cfg bId) (st.param wId) (mbias bId st) x (some val) wrt) = _
    rw [e2]; rfl
  · show (do let val ← Conv2d.modeVal m (g.cfg bId) (st.param wId) (mbias bId st) x none
             Conv2d.vjp (g.cfg bId) (st.param wId) (mbias bId st) x (some val) v wrt) = _
    rw [e2]; rfl
  · show (do let val ← Conv2d.modeVal m (g.cfg bId) (st.param wId) (mbias bId st) x none
             Conv2d.mjp (g.cfg bId) (st.param wId) (mbias bId st) x (some val) A wrt) = _
    rw [e2]; rfl
  · show (do let r ← (do let val ← Conv2d.modeVal m (g.cfg bId) (st.param wId) (mbias bId st) x none
                         Conv2d.jTmjp (g.cfg bId) (st.param wId) (mbias bId st) x (some val) A wrt fd td db)
             pure (PyVal.ofOption r)) = _
    rw [e2]; rfl

/-- `jacobian` in mode `m` is the derivative of `forward` exactly when, for every output pixel and every input pixel, the kernel entries that fall beyond the border
and there read a copy of that pixel add up to 0; then and only then `vjp` multiplies with the derivative for every vector. -/
theorem C63_exact_iff (hB : 0 < B) (ha : g.Accepts m) (hw : g.Params wId bId st) (hx : IsBatch x B [g.c1, g.h1, g.w1] (g.c1 * g.h1 * g.w1) X)
    {D : Fin B → Matrix (Fin (g.c2 * g.h2 * g.w2)) (Fin (g.c1 * g.h1 * g.w1)) ℝ}
    (hD : ∀ b, HasFDerivAt (forwardMap (g.modeMod m id wId bId) st [g.c1, g.h1, g.w1]) (linMap (D b)) (X b)) :
    ((∃ jt, Returns ((g.modeMod m id wId bId).jacobian x none .input) st (some jt) ∧ IsMat jt B (g.c2 * g.h2 * g.w2) (g.c1 * g.h1 * g.w1) D) ↔
      ∀ (o : Fin g.c2) (r : Fin g.h2) (s : Fin g.w2) (c : Fin g.c1) (u : Fin g.h1) (v : Fin g.w1),
        (∑ i : Fin g.kh, ∑ j : Fin g.kw, if g.Beyond r s i j ∧ g.srcR m r i = (u : Nat) ∧ g.srcC m s j = (v : Nat) then
          g.ker (st.param wId).data o c i j else 0) = 0) ∧
    ((∀ v V, IsVec v B (g.c2 * g.h2 * g.w2) V → ∃ t, Returns ((g.modeMod m id wId bId).vjp x none v .input) st (some t) ∧
        IsVec t B (g.c1 * g.h1 * g.w1) fun b => V b ᵥ* D b) ↔
      ∀ (o : Fin g.c2) (r : Fin g.h2) (s : Fin g.w2) (c : Fin g.c1) (u : Fin g.h1) (v : Fin g.w1),
        (∑ i : Fin g.kh, ∑ j : Fin g.kw, if g.Beyond r s i j ∧ g.srcR m r i = (u : Nat) ∧ g.srcC m s j = (v : Nat) then
          g.ker (st.param wId).data o c i j else 0) = 0) := by
  have hDq : ∀ b, D b = g.modeJ m (st.param wId).data := fun b => linMap_unique (hD b) ((C63_forward g m id wId bId ha hw hx).2.2.2 _)
  have hp := C63_products g m id wId bId (x := x) (st := st) none fun _ => ⟨ha, hw, B, X, hx⟩
  obtain ⟨jt, J, ej, hJ, hJd, hv, -⟩ := C44_input g id wId bId hw hx
  have hJq : ∀ b, J b = g.J (st.param wId).data := fun b => linMap_unique (hJd b) (by
    have := (C63_forward g .zeros id wId bId trivial hw hx).2.2.2 (X b)
    have e : g.modeJ .zeros (st.param wId).data = g.J (st.param wId).data := by
      funext k q
      simp only [GConv.modeJ, GConv.J]
      refine Finset.sum_congr rfl fun i _ => Finset.sum_congr rfl fun j _ => if_congr ?_ rfl rfl
      simp only [GConv.srcR, GConv.srcC, PadMode.src]
      omega
    rw [e] at this
    exact this)
  have hiff : g.modeJ m (st.param wId).data = g.J (st.param wId).data ↔
      ∀ (o : Fin g.c2) (r : Fin g.h2) (s : Fin g.w2) (c : Fin g.c1) (u : Fin g.h1) (v : Fin g.w1),
        (∑ i : Fin g.kh, ∑ j : Fin g.kw, if g.Beyond r s i j ∧ g.srcR m r i = (u : Nat) ∧ g.srcC m s j = (v : Nat) then
          g.ker (st.param wId).data o c i j else 0) = 0 := by
    constructor
    · intro h o r s c u v
      have := GConv.modeJ_sub (m := m) (st.param wId).data (pix o r s) (pix c u v)
      simp only [row_pix, col_pix, chan_pix, h] at this
      linarith
    · intro h
      funext k q
      rw [GConv.modeJ_sub]
      have := h (chan k) (row k) (col k) (chan q) (row q) (col q)
      linarith
  rw [← hiff]
  refine ⟨⟨?_, ?_⟩, ⟨?_, ?_⟩⟩
  · rintro ⟨t, ht, hT⟩
    have e : Except.ok (some t) = Except.ok (some jt) := (ht.symm.trans (congrArg Prod.fst (hp.1 .input))).trans ej
    cases e
    funext k q
    have e1 := (hT.2 ⟨0, hB⟩ k q).symm.trans (hJ.2 ⟨0, hB⟩ k q)
    rwa [hDq, hJq] at e1
  · intro h
    refine ⟨jt, (congrArg Prod.fst (hp.1 .input)).trans ej, hJ.congr fun b k q => ?_⟩
    rw [hDq, hJq, h]
  · intro H
    funext k q
    let V : Fin B → Fin (g.c2 * g.h2 * g.w2) → ℝ := fun _ i => if i = k then 1 else 0
    let v : Tensor ℝ := ofFn [B, g.c2 * g.h2 * g.w2] fun idx => if idx.getD 1 0 = k then 1 else 0
    have hV : IsVec v B (g.c2 * g.h2 * g.w2) V := ⟨rfl, fun b i => by
      rw [get_ofFn _ (by simp)]
      simp [V, Fin.ext_iff]⟩
    obtain ⟨t, ht, hT⟩ := H v V hV
    obtain ⟨t', ht', hT'⟩ := hv v V hV
    have e : Except.ok (some t) = Except.ok (some t') := (ht.symm.trans (congrArg Prod.fst (hp.2.2.2.2.1 v .input))).trans ht'
    cases e
    have e1 := (hT.2 ⟨0, hB⟩ q).symm.trans (hT'.2 ⟨0, hB⟩ q)
    have e2 : ∀ A : Matrix (Fin (g.c2 * g.h2 * g.w2)) (Fin (g.c1 * g.h1 * g.w1)) ℝ, (V ⟨0, hB⟩ ᵥ* A) q = A k q := fun A => by
      simp [vecMul, dotProduct, V]
    dsimp only at e1
    rw [e2, e2, hDq, hJq] at e1
    exact e1
  · intro h v V hV
    obtain ⟨t', ht', hT'⟩ := hv v V hV
    refine ⟨t', (congrArg Prod.fst (hp.2.2.2.2.1 v .input)).trans ht', hT'.congr fun b i => ?_⟩
    rw [hDq, hJq, h]

/-- Without padding every mode accepts every image, computes what the mode "zeros" does, and `jacobian` is the derivative of `forward`. -/
theorem C63_no_padding (hp : g.ph = 0 ∧ g.pw = 0) (hB : 0 < B) (hw : g.Params wId bId st) (hx : IsBatch x B [g.c1, g.h1, g.w1] (g.c1 * g.h1 * g.w1) X) :
    (∃ t t' Y, Returns ((g.modeMod m id wId bId).forward x) st t ∧ Returns ((g.mod id wId bId).forward x) st t' ∧
      IsBatch t B [g.c2, g.h2, g.w2] (g.c2 * g.h2 * g.w2) Y ∧ IsBatch t' B [g.c2, g.h2, g.w2] (g.c2 * g.h2 * g.w2) Y) ∧
    ∃ jt J, Returns ((g.modeMod m id wId bId).jacobian x none .input) st (some jt) ∧ IsMat jt B (g.c2 * g.h2 * g.w2) (g.c1 * g.h1 * g.w1) J ∧
      ∀ b, HasFDerivAt (forwardMap (g.modeMod m id wId bId) st [g.c1, g.h1, g.w1]) (linMap (J b)) (X b) := by
  have p1 := g.ph1
  have p2 := g.pw1
  have ha : g.Accepts m := by
    unfold GConv.Accepts
    rw [hp.1, hp.2]
    cases m <;> simp [p1, p2]
  have hb : ∀ (r : Fin g.h2) (s : Fin g.w2) (i : Fin g.kh) (j : Fin g.kw), ¬ g.Beyond r s i j := by
    intro r s i j
    have h1 := g.tapR r.2 i.2
    have h2 := g.tapC s.2 j.2
    unfold GConv.Beyond
    omega
  constructor
  · obtain ⟨t, ht, hT⟩ := GConv.mode_specG (bId := bId) hw.weight ha (mbias_shape g wId bId hw) hx
    obtain ⟨t', ht', hT'⟩ := GConv.forward_specG (bId := bId) hw.weight (mbias_shape g wId bId hw) hx
    refine ⟨t, t', _, ht, ht', hT, hT'.congr fun b k => ?_⟩
    rw [GConv.modeF_eq, GConv.F_eq]
    have : g.modeJ m (st.param wId).data = g.J (st.param wId).data := by
      funext k q
      rw [GConv.modeJ_sub, Finset.sum_eq_zero fun i _ => Finset.sum_eq_zero fun j _ => if_neg fun h => hb _ _ _ _ h.1, add_zero]
    rw [this]
  · have hD := fun b => (C63_forward g m id wId bId ha hw hx).2.2.2 (X b)
    obtain ⟨jt, ej, hJ⟩ := (C63_exact_iff g m id wId bId hB ha hw hx hD).1.2 fun o r s c u v =>
      Finset.sum_eq_zero fun i _ => Finset.sum_eq_zero fun j _ => if_neg fun h => hb _ _ _ _ h.1
    exact ⟨jt, _, ej, hJ, hD⟩

/-- With padding, a mode other than zeros and a kernel of positive numbers, `jacobian` returns a matrix which is not the derivative of `forward`. -/
theorem C63_positive (hB : 0 < B) (hm : m ≠ .zeros) (hp : 0 < g.ph ∨ 0 < g.pw) (ha : g.Accepts m) (hw : g.Params wId bId st)
    (hpos : ∀ k, 0 < (st.param wId).data k) (hx : IsBatch x B [g.c1, g.h1, g.w1] (g.c1 * g.h1 * g.w1) X) :
    ∃ jt J, Returns ((g.modeMod m id wId bId).jacobian x none .input) st (some jt) ∧ IsMat jt B (g.c2 * g.h2 * g.w2) (g.c1 * g.h1 * g.w1) J ∧
      ∃ b, ¬ HasFDerivAt (forwardMap (g.modeMod m id wId bId) st [g.c1, g.h1, g.w1]) (linMap (J b)) (X b) := by
  obtain ⟨jt, J, ej, hJ, hJd, hv, -⟩ := C44_input g id wId bId hw hx
  have hp' := C63_products g m id wId bId (x := x) (st := st) none fun _ => ⟨ha, hw, B, X, hx⟩
  have ej' := (congrArg Prod.fst (hp'.1 .input)).trans ej
  refine ⟨jt, J, ej', hJ, ?_⟩
  by_contra hn
  have hD : ∀ b, HasFDerivAt (forwardMap (g.modeMod m id wId bId) st [g.c1, g.h1, g.w1]) (linMap (J b)) (X b) := fun b => by
    by_contra hb
    exact hn ⟨b, hb⟩
  have key := (C63_exact_iff g m id wId bId hB ha hw hx hD).1.1 ⟨jt, ej', hJ⟩
  have hk : ∀ o c i j, 0 ≤ g.ker (st.param wId).data o c i j := fun o c i j => by
    unfold GConv.ker
    split_ifs
    · exact (hpos _).le
    · exact le_rfl
  have r1 := PadMode.src_range hm g.ph1 (GConv.accepts_iff.1 ha).1 (g.tapR g.ph2 g.pkh)
  have r2 := PadMode.src_range hm g.pw1 (GConv.accepts_iff.1 ha).2 (g.tapC g.pw2 g.pkw)
  have z := key ⟨0, Nat.mul_pos g.pG g.pog⟩ ⟨0, g.ph2⟩ ⟨0, g.pw2⟩ ⟨0, Nat.mul_pos g.pG g.pcg⟩ ⟨(g.srcR m 0 0).toNat, by unfold GConv.srcR; omega⟩
    ⟨(g.srcC m 0 0).toNat, by unfold GConv.srcC; omega⟩
  rw [Finset.sum_eq_zero_iff_of_nonneg fun i _ => Finset.sum_nonneg fun j _ => by split_ifs <;> simp [hk]] at z
  have z := z ⟨0, g.pkh⟩ (Finset.mem_univ _)
  rw [Finset.sum_eq_zero_iff_of_nonneg fun j _ => by split_ifs <;> simp [hk]] at z
  have z := z ⟨0, g.pkw⟩ (Finset.mem_univ _)
  dsimp only at z
  rw [if_pos] at z
  · have := hpos (((0 * g.cg + 0 % g.cg) * g.kh + 0) * g.kw + 0)
    simp only [GConv.ker, Nat.zero_div, if_true] at z
    linarith
  · refine ⟨?_, ?_, ?_⟩
    · unfold GConv.Beyond
      omega
    · unfold GConv.srcR; omega
    · unfold GConv.srcC; omega

end

/-- a kernel of three entries side by side, padding 1, on images of one row of two pixels -/
def exM : GConv where
  G := 1
  cg := 1
  og := 1
  h1 := 1
  w1 := 2
  h2 := 1
  w2 := 2
  kh := 1
  kw := 3
  ph := 0
  pw := 1
  dh := 1
  dw := 1
  vmap := true
  pG := by decide
  pcg := by decide
  pog := by decide
  pkh := by decide
  pkw := by decide
  pdh := by decide
  pdw := by decide
  ph1 := by decide
  pw1 := by decide
  ph2 := by decide
  pw2 := by decide
  eh := by decide
  ew := by decide

/-- parameter 0 is the weight tensor `1, 2, 3` -/
def exMStore : Store ℝ where
  param := fun i => if i = 0 then ⟨[1, 1, 1, 3], fun k => (k : ℝ) + 1⟩ else ⟨[1], fun _ => 1⟩
  fmaps := fun _ => none
  pidx := fun _ => none
  hooks := fun _ => []

theorem exM_params : exM.Params 0 (some 1) exMStore := ⟨rfl, fun b hb => by simp at hb; subst hb; rfl⟩

theorem exM_batch : IsBatch (ones [2, 1, 1, 2] : Tensor ℝ) 2 [exM.c1, exM.h1, exM.w1] (exM.c1 * exM.h1 * exM.w1) fun _ _ => 1 :=
  ⟨rfl, fun _ _ => rfl⟩

theorem exM_accepts (m : PadMode) : exM.Accepts m := by cases m <;> simp [GConv.Accepts, exM]

example (m : PadMode) (hm : m ≠ .zeros) :
    ∃ jt J, Returns ((exM.modeMod m 5 0 (some 1)).jacobian (ones [2, 1, 1, 2]) none .input) exMStore (some jt) ∧
      IsMat jt 2 (exM.c2 * exM.h2 * exM.w2) (exM.c1 * exM.h1 * exM.w1) J ∧
      ∃ b, ¬ HasFDerivAt (forwardMap (exM.modeMod m 5 0 (some 1)) exMStore [exM.c1, exM.h1, exM.w1]) (linMap (J b)) (fun _ => 1) :=
  C63_positive exM m 5 0 (some 1) (by norm_num) hm (.inr (by decide)) (exM_accepts m) exM_params
    (fun k => by show (0 : ℝ) < (k : ℝ) + 1; positivity) exM_batch

/-- reflecting needs a padding smaller than the image -/
example : Raises ((exG.modeMod .reflect 5 0 (some 1)).forward (ones [2, 2, 3, 2] : Tensor ℝ)) :=
  (C63_refused exG .reflect 5 0 (some 1) (by decide) (fun h => absurd h.2 (by decide)) rfl).1

/-- `Conv2d(1, 1, 3, stride=2, padding="same")` -/
example : (Conv2d.modeInit ⟨1, 1, (3, 3), (2, 2), (0, 0), (1, 1), 1, true, false⟩ .same (some .zeros) 0 0 1 : Res (Mod ℝ)) = .error .value :=
  (C63_stride (cfg := _) (m := .zeros) (bId := 1) ..).2.1 (by decide) _ (by simp)

end Props
end NNJ
