import Verif.Proofs.SeqGood
import Verif.Proofs.SkipGood
import Verif.Proofs.LeafL2
import Verif.Proofs.LeafLinear
import Verif.Proofs.LeafUpsample
import Verif.Proofs.ConvGood
import Verif.Proofs.PoolGood
import Verif.Spec.Net

/-! Every network satisfies the contract. -/

namespace NNJ
open Tensor Matrix

mutual
/-- network as a module with contract -/
noncomputable def Net.mdl : {s s' : List Nat} → {n k p : Nat} → Net s n s' k p → Mdl s n s' k p
  | _, _, _, _, _, .linear id wId bId i o _ _ =>
    Mdl.leaf (Linear.mod id wId bId i o) [i] i [o] o _ (linearSem bId i o)
      (fun st => (st.param wId).shape = [o, i] ∧ ∀ b ∈ bId, (st.param b).shape = [o]) (linearW wId bId i o)
  | _, _, _, _, _, .act a id s n _ _ => Mdl.leaf (Activation.toMod a.layer id) s n s n 0 (a.sem n) (fun _ => True) fun _ _ => 0
  | _, _, _, _, _, .flatten id s n _ _ => Mdl.leaf (Resh.flatten id) s n [n] n 0 (reshapeSem n) (fun _ => True) fun _ _ => 0
  | _, _, _, _, _, .reshape id s dims n _ _ _ z _ => Mdl.leaf (Resh.reshape z id) s n dims n 0 (reshapeSem n) (fun _ => True) fun _ _ => 0
  | _, _, _, _, _, .l2norm id eps s n _ _ _ => Mdl.leaf (L2Norm.mod eps id) s n s n 0 (l2Sem eps n) (fun _ => True) fun _ _ => 0
  | _, _, _, _, _, .conv id wId bId g =>
    Mdl.leaf (Conv2d.mod (g.cfg bId) id wId (bId.getD 0)) [g.c1, g.h1, g.w1] (g.c1 * g.h1 * g.w1) [g.c2, g.h2, g.w2] (g.c2 * g.h2 * g.w2) _
      (convSem bId g.c1 g.h1 g.w1 g.c2 g.h2 g.w2 g.kh g.kw g.ph g.pw)
      (fun st => (st.param wId).shape = [g.c2, g.c1, g.kh, g.kw] ∧ ∀ b ∈ bId, (st.param b).shape = [g.c2]) (convW wId bId g) False
  | _, _, _, _, _, .upsample id c h w r _ _ _ _ =>
    Mdl.leaf (Upsample.mod ⟨r, 1⟩ id) [c, h, w] (c * h * w) [c, h * r, w * r] (c * (h * r) * (w * r)) 0 (upSem c h w r) (fun _ => True) (fun _ _ => 0) False
  | _, _, _, _, _, .maxpool id g => MaxPool2d.poolMdl g.a g.c g.h g.w g.h2 g.w2 id
  | _, _, _, _, _, .seq id c => seqMdl id c.mchain
  | _, _, _, _, _, .skip id fid ch => skipMdl id (seqMdl fid ch.mchain)
noncomputable def Chain.mchain : {s s' : List Nat} → {n k p l : Nat} → Chain s n s' k p l → MChain s n s' k p l
  | _, _, _, _, _, _, .nil s n _ _ => .nil s n
  | _, _, _, _, _, _, .snoc c m => .snoc c.mchain m.mdl
end

mutual
theorem Net.mdl_m : {s s' : List Nat} → {n k p : Nat} → (N : Net s n s' k p) → N.mdl.m = N.mod
  | _, _, _, _, _, .linear _ _ _ _ _ _ _ => by simp only [Net.mdl, Net.mod, Mdl.leaf]
  | _, _, _, _, _, .act _ _ _ _ _ _ => by simp only [Net.mdl, Net.mod, Mdl.leaf]
  | _, _, _, _, _, .flatten _ _ _ _ _ => by simp only [Net.mdl, Net.mod, Mdl.leaf]
  | _, _, _, _, _, .reshape _ _ _ _ _ _ _ _ _ => by simp only [Net.mdl, Net.mod, Mdl.leaf]
  | _, _, _, _, _, .l2norm _ _ _ _ _ _ _ => by simp only [Net.mdl, Net.mod, Mdl.leaf]
  | _, _, _, _, _, .conv _ _ _ _ => by simp only [Net.mdl, Net.mod, Mdl.leaf]
  | _, _, _, _, _, .upsample _ _ _ _ _ _ _ _ _ => by simp only [Net.mdl, Net.mod, Mdl.leaf]
  | _, _, _, _, _, .maxpool _ _ => by simp only [Net.mdl, Net.mod, MaxPool2d.poolMdl]
  | _, _, _, _, _, .seq id c => by simp only [Net.mdl, Net.mod, seqMdl, Chain.mchain_mods c]
  | _, _, _, _, _, .skip id fid ch => by simp only [Net.mdl, Net.mod, skipMdl, seqMdl, Chain.mchain_mods ch]
theorem Chain.mchain_mods : {s s' : List Nat} → {n k p l : Nat} → (c : Chain s n s' k p l) → c.mchain.mods = c.mods
  | _, _, _, _, _, _, .nil _ _ _ _ => by simp only [Chain.mchain, MChain.mods, Chain.mods]
  | _, _, _, _, _, _, .snoc c m => by simp only [Chain.mchain, MChain.mods, Chain.mods, Chain.mchain_mods c, Net.mdl_m m]
end

mutual
theorem Net.mdl_S : {s s' : List Nat} → {n k p : Nat} → (N : Net s n s' k p) → N.mdl.S = N.sem
  | _, _, _, _, _, .linear _ _ _ _ _ _ _ => by simp only [Net.mdl, Net.sem, Mdl.leaf]
  | _, _, _, _, _, .act _ _ _ _ _ _ => by simp only [Net.mdl, Net.sem, Mdl.leaf]
  | _, _, _, _, _, .flatten _ _ _ _ _ => by simp only [Net.mdl, Net.sem, Mdl.leaf]
  | _, _, _, _, _, .reshape _ _ _ _ _ _ _ _ _ => by simp only [Net.mdl, Net.sem, Mdl.leaf]
  | _, _, _, _, _, .l2norm _ _ _ _ _ _ _ => by simp only [Net.mdl, Net.sem, Mdl.leaf]
  | _, _, _, _, _, .conv _ _ _ _ => by simp only [Net.mdl, Net.sem, Mdl.leaf]
  | _, _, _, _, _, .upsample _ _ _ _ _ _ _ _ _ => by simp only [Net.mdl, Net.sem, Mdl.leaf]
  | _, _, _, _, _, .maxpool _ _ => by simp only [Net.mdl, Net.sem, MaxPool2d.poolMdl]
  | _, _, _, _, _, .seq id c => by simp only [Net.mdl, Net.sem, seqMdl, Chain.mchain_S c]
  | _, _, _, _, _, .skip id fid ch => by simp only [Net.mdl, Net.sem, skipMdl, seqMdl, Chain.mchain_S ch]
theorem Chain.mchain_S : {s s' : List Nat} → {n k p l : Nat} → (c : Chain s n s' k p l) → c.mchain.S = c.sem
  | _, _, _, _, _, _, .nil _ _ _ _ => by simp only [Chain.mchain, MChain.S, Chain.sem]
  | _, _, _, _, _, _, .snoc c m => by simp only [Chain.mchain, MChain.S, Chain.sem, Chain.mchain_S c, Net.mdl_S m]
end

mutual
theorem Net.mdl_ids : {s s' : List Nat} → {n k p : Nat} → (N : Net s n s' k p) → N.mdl.ids = N.ids
  | _, _, _, _, _, .linear _ _ _ _ _ _ _ => by simp only [Net.mdl, Net.ids, Mdl.leaf]; rfl
  | _, _, _, _, _, .act _ _ _ _ _ _ => by simp only [Net.mdl, Net.ids, Mdl.leaf]; rfl
  | _, _, _, _, _, .flatten _ _ _ _ _ => by simp only [Net.mdl, Net.ids, Mdl.leaf]; rfl
  | _, _, _, _, _, .reshape _ _ _ _ _ _ _ _ _ => by simp only [Net.mdl, Net.ids, Mdl.leaf]; rfl
  | _, _, _, _, _, .l2norm _ _ _ _ _ _ _ => by simp only [Net.mdl, Net.ids, Mdl.leaf]; rfl
  | _, _, _, _, _, .conv _ _ _ _ => by simp only [Net.mdl, Net.ids, Mdl.leaf]; rfl
  | _, _, _, _, _, .upsample _ _ _ _ _ _ _ _ _ => by simp only [Net.mdl, Net.ids, Mdl.leaf]; rfl
  | _, _, _, _, _, .maxpool _ _ => by simp only [Net.mdl, Net.ids, MaxPool2d.poolMdl]
  | _, _, _, _, _, .seq id c => by simp only [Net.mdl, Net.ids, seqMdl, Chain.mchain_ids c]
  | _, _, _, _, _, .skip id fid ch => by simp only [Net.mdl, Net.ids, skipMdl, seqMdl, Chain.mchain_ids ch]
theorem Chain.mchain_ids : {s s' : List Nat} → {n k p l : Nat} → (c : Chain s n s' k p l) → c.mchain.ids = c.ids
  | _, _, _, _, _, _, .nil _ _ _ _ => by simp only [Chain.mchain, MChain.ids, Chain.ids]
  | _, _, _, _, _, _, .snoc c m => by simp only [Chain.mchain, MChain.ids, Chain.ids, Chain.mchain_ids c, Net.mdl_ids m]
end

mutual
theorem Net.mdl_w : {s s' : List Nat} → {n k p : Nat} → (N : Net s n s' k p) → N.mdl.w = N.w
  | _, _, _, _, _, .linear _ _ _ _ _ _ _ => by funext st; simp only [Net.mdl, Net.w, Mdl.leaf]
  | _, _, _, _, _, .act _ _ _ _ _ _ => by funext st; simp only [Net.mdl, Net.w, Mdl.leaf]
  | _, _, _, _, _, .flatten _ _ _ _ _ => by funext st; simp only [Net.mdl, Net.w, Mdl.leaf]
  | _, _, _, _, _, .reshape _ _ _ _ _ _ _ _ _ => by funext st; simp only [Net.mdl, Net.w, Mdl.leaf]
  | _, _, _, _, _, .l2norm _ _ _ _ _ _ _ => by funext st; simp only [Net.mdl, Net.w, Mdl.leaf]
  | _, _, _, _, _, .conv _ _ _ _ => by funext st; simp only [Net.mdl, Net.w, Mdl.leaf]
  | _, _, _, _, _, .upsample _ _ _ _ _ _ _ _ _ => by funext st; simp only [Net.mdl, Net.w, Mdl.leaf]
  | _, _, _, _, _, .maxpool _ _ => by funext st; simp only [Net.mdl, Net.w, MaxPool2d.poolMdl]
  | _, _, _, _, _, .seq id c => by funext st; simp only [Net.mdl, Net.w, seqMdl, Chain.mchain_w c]
  | _, _, _, _, _, .skip id fid ch => by funext st; simp only [Net.mdl, Net.w, skipMdl, seqMdl, Chain.mchain_w ch]
theorem Chain.mchain_w : {s s' : List Nat} → {n k p l : Nat} → (c : Chain s n s' k p l) → c.mchain.w = c.w
  | _, _, _, _, _, _, .nil _ _ _ _ => by funext st; simp only [Chain.mchain, MChain.w, Chain.w]
  | _, _, _, _, _, _, .snoc c m => by funext st; simp only [Chain.mchain, MChain.w, Chain.w, Chain.mchain_w c, Net.mdl_w m]
end

mutual
theorem Net.mdl_wired : {s s' : List Nat} → {n k p : Nat} → (N : Net s n s' k p) → (st : Store ℝ) → (N.mdl.wired st ↔ N.Wired st)
  | _, _, _, _, _, .linear _ _ _ _ _ _ _, _ => by simp only [Net.mdl, Net.Wired, Mdl.leaf]
  | _, _, _, _, _, .act _ _ _ _ _ _, _ => by simp only [Net.mdl, Net.Wired, Mdl.leaf]
  | _, _, _, _, _, .flatten _ _ _ _ _, _ => by simp only [Net.mdl, Net.Wired, Mdl.leaf]
  | _, _, _, _, _, .reshape _ _ _ _ _ _ _ _ _, _ => by simp only [Net.mdl, Net.Wired, Mdl.leaf]
  | _, _, _, _, _, .l2norm _ _ _ _ _ _ _, _ => by simp only [Net.mdl, Net.Wired, Mdl.leaf]
  | _, _, _, _, _, .conv _ _ _ _, _ => by simp only [Net.mdl, Net.Wired, Mdl.leaf]
  | _, _, _, _, _, .upsample _ _ _ _ _ _ _ _ _, _ => by simp only [Net.mdl, Net.Wired, Mdl.leaf]
  | _, _, _, _, _, .maxpool _ _, _ => by simp only [Net.mdl, Net.Wired, MaxPool2d.poolMdl]
  | _, _, _, _, _, .seq id c, st => by simp only [Net.mdl, Net.Wired, seqMdl, Chain.mchain_wired c id st]
  | _, _, _, _, _, .skip id fid ch, st => by
    simp only [Net.mdl, Net.Wired, skipMdl, seqMdl, Chain.mchain_wired ch fid st, Sequential.mod]
    tauto
theorem Chain.mchain_wired : {s s' : List Nat} → {n k p l : Nat} → (c : Chain s n s' k p l) → (q : Nat) → (st : Store ℝ) →
    (c.mchain.Wired q st ↔ c.Wired q st)
  | _, _, _, _, _, _, .nil _ _ _ _, _, _ => by simp only [Chain.mchain, MChain.Wired, Chain.Wired]
  | _, _, _, _, _, _, .snoc c m, q, st => by
    simp only [Chain.mchain, MChain.Wired, Chain.Wired, Chain.mchain_wired c q st, Net.mdl_wired m st, Net.mdl_m m]
end

mutual
theorem Net.mdl_fwdI : {s s' : List Nat} → {n k p : Nat} → (N : Net s n s' k p) → (N.mdl.fwdI ↔ N.FwdI)
  | _, _, _, _, _, .linear _ _ _ _ _ _ _ => by simp only [Net.mdl, Net.FwdI, Mdl.leaf]
  | _, _, _, _, _, .act _ _ _ _ _ _ => by simp only [Net.mdl, Net.FwdI, Mdl.leaf]
  | _, _, _, _, _, .flatten _ _ _ _ _ => by simp only [Net.mdl, Net.FwdI, Mdl.leaf]
  | _, _, _, _, _, .reshape _ _ _ _ _ _ _ _ _ => by simp only [Net.mdl, Net.FwdI, Mdl.leaf]
  | _, _, _, _, _, .l2norm _ _ _ _ _ _ _ => by simp only [Net.mdl, Net.FwdI, Mdl.leaf]
  | _, _, _, _, _, .conv _ _ _ _ => by simp only [Net.mdl, Net.FwdI, Mdl.leaf]
  | _, _, _, _, _, .upsample _ _ _ _ _ _ _ _ _ => by simp only [Net.mdl, Net.FwdI, Mdl.leaf]
  | _, _, _, _, _, .maxpool _ _ => by simp only [Net.mdl, Net.FwdI, MaxPool2d.poolMdl]
  | _, _, _, _, _, .seq id c => by simp only [Net.mdl, Net.FwdI, seqMdl, Chain.mchain_fwdI c]
  | _, _, _, _, _, .skip id fid ch => by simp only [Net.mdl, Net.FwdI, skipMdl, seqMdl, Chain.mchain_fwdI ch]
theorem Chain.mchain_fwdI : {s s' : List Nat} → {n k p l : Nat} → (c : Chain s n s' k p l) → (c.mchain.fwdI ↔ c.FwdI)
  | _, _, _, _, _, _, .nil _ _ _ _ => by simp only [Chain.mchain, MChain.fwdI, MChain.All, Chain.FwdI]
  | _, _, _, _, _, _, .snoc c m => by
    have := Chain.mchain_fwdI c
    simp only [MChain.fwdI] at this
    simp only [Chain.mchain, MChain.fwdI, MChain.All, Chain.FwdI, this, Net.mdl_fwdI m]
end

mutual
theorem Net.mdl_pushW : {s s' : List Nat} → {n k p : Nat} → (N : Net s n s' k p) → (N.mdl.pushW ↔ N.PushW)
  | _, _, _, _, _, .linear _ _ _ _ _ _ _ => by simp only [Net.mdl, Net.PushW, Mdl.leaf]
  | _, _, _, _, _, .act _ _ _ _ _ _ => by simp only [Net.mdl, Net.PushW, Mdl.leaf]
  | _, _, _, _, _, .flatten _ _ _ _ _ => by simp only [Net.mdl, Net.PushW, Mdl.leaf]
  | _, _, _, _, _, .reshape _ _ _ _ _ _ _ _ _ => by simp only [Net.mdl, Net.PushW, Mdl.leaf]
  | _, _, _, _, _, .l2norm _ _ _ _ _ _ _ => by simp only [Net.mdl, Net.PushW, Mdl.leaf]
  | _, _, _, _, _, .conv _ _ _ _ => by simp only [Net.mdl, Net.PushW, Mdl.leaf]
  | _, _, _, _, _, .upsample _ _ _ _ _ _ _ _ _ => by simp only [Net.mdl, Net.PushW, Mdl.leaf]
  | _, _, _, _, _, .maxpool _ _ => by simp only [Net.mdl, Net.PushW, MaxPool2d.poolMdl]
  | _, _, _, _, _, .seq id c => by simp only [Net.mdl, Net.PushW, seqMdl, Chain.mchain_pushW c]
  | _, _, _, _, _, .skip id fid ch => by simp only [Net.mdl, Net.PushW, skipMdl, seqMdl, Chain.mchain_pushW ch]
theorem Chain.mchain_pushW : {s s' : List Nat} → {n k p l : Nat} → (c : Chain s n s' k p l) → (c.mchain.pushW ↔ c.PushW)
  | _, _, _, _, _, _, .nil _ _ _ _ => by simp only [Chain.mchain, MChain.pushW, Chain.PushW]
  | _, _, _, _, _, _, .snoc c m => by
    simp only [Chain.mchain, MChain.pushW, Chain.PushW, Chain.mchain_pushW c, Net.mdl_fwdI m, Net.mdl_pushW m]
end

mutual
theorem Net.FwdI.pushW : {s s' : List Nat} → {n k p : Nat} → {N : Net s n s' k p} → N.FwdI → N.PushW
  | _, _, _, _, _, .linear .., _ => by simp only [Net.PushW]
  | _, _, _, _, _, .act .., _ => by simp only [Net.PushW]
  | _, _, _, _, _, .flatten .., _ => by simp only [Net.PushW]
  | _, _, _, _, _, .reshape .., _ => by simp only [Net.PushW]
  | _, _, _, _, _, .l2norm .., _ => by simp only [Net.PushW]
  | _, _, _, _, _, .conv .., h => by simp only [Net.FwdI] at h
  | _, _, _, _, _, .upsample .., h => by simp only [Net.FwdI] at h
  | _, _, _, _, _, .maxpool .., h => by simp only [Net.FwdI] at h
  | _, _, _, _, _, .seq id c, h => by simp only [Net.FwdI, Net.PushW] at h ⊢; exact h.pushW
  | _, _, _, _, _, .skip id fid ch, h => by simp only [Net.FwdI, Net.PushW] at h ⊢; exact h.pushW
theorem Chain.FwdI.pushW : {s s' : List Nat} → {n k p l : Nat} → {c : Chain s n s' k p l} → c.FwdI → c.PushW
  | _, _, _, _, _, _, .nil _ _ _ _, _ => by simp only [Chain.PushW]
  | _, _, _, _, _, _, .snoc c m, h => by
    simp only [Chain.FwdI, Chain.PushW] at h ⊢
    exact ⟨h.1.pushW, .inr h.2, .inr h.2.pushW⟩
end

mutual
theorem Net.mdl_fwdW : {s s' : List Nat} → {n k p : Nat} → (N : Net s n s' k p) → (N.mdl.fwdW ↔ N.FwdW)
  | _, _, _, _, _, .linear _ _ _ _ _ _ _ => by simp only [Net.mdl, Net.FwdW, Mdl.leaf]
  | _, _, _, _, _, .act _ _ _ _ _ _ => by simp only [Net.mdl, Net.FwdW, Mdl.leaf]
  | _, _, _, _, _, .flatten _ _ _ _ _ => by simp only [Net.mdl, Net.FwdW, Mdl.leaf]
  | _, _, _, _, _, .reshape _ _ _ _ _ _ _ _ _ => by simp only [Net.mdl, Net.FwdW, Mdl.leaf]
  | _, _, _, _, _, .l2norm _ _ _ _ _ _ _ => by simp only [Net.mdl, Net.FwdW, Mdl.leaf]
  | _, _, _, _, _, .conv _ _ _ _ => by simp only [Net.mdl, Net.FwdW, Mdl.leaf]
  | _, _, _, _, _, .upsample _ _ _ _ _ _ _ _ _ => by simp only [Net.mdl, Net.FwdW, Mdl.leaf]
  | _, _, _, _, _, .maxpool _ _ => by simp only [Net.mdl, Net.FwdW, MaxPool2d.poolMdl]
  | _, _, _, _, _, .seq id c => by simp only [Net.mdl, Net.FwdW, seqMdl, Chain.mchain_fwdW c]
  | _, _, _, _, _, .skip id fid ch => by simp only [Net.mdl, Net.FwdW, skipMdl, seqMdl, Chain.mchain_fwdW ch]
theorem Chain.mchain_fwdW : {s s' : List Nat} → {n k p l : Nat} → (c : Chain s n s' k p l) → (c.mchain.fwdW ↔ c.FwdW)
  | _, _, _, _, _, _, .nil _ _ _ _ => by simp only [Chain.mchain, MChain.fwdW, MChain.All, Chain.FwdW]
  | _, _, _, _, _, _, .snoc c m => by
    have := Chain.mchain_fwdW c
    simp only [MChain.fwdW] at this
    simp only [Chain.mchain, MChain.fwdW, MChain.All, Chain.FwdW, this, Net.mdl_fwdW m]
end

theorem isTensor_iff {P : Tensor ℝ → Prop} {v : PyVal ℝ} : IsTensor P v ↔ ∃ t, v = .tensor t ∧ P t := by
  cases v <;> simp [IsTensor]

mutual
theorem Net.mdl_blocks : {s s' : List Nat} → {n k p : Nat} → (N : Net s n s' k p) → (v : PyVal ℝ) → (B : Nat) →
    (Z : Fin B → Matrix (Fin p) (Fin p) ℝ) → (N.mdl.blocks v B Z ↔ N.Blocks v B Z)
  | _, _, _, _, _, .linear _ _ _ _ _ _ _, _, _, _ => by simp only [Net.mdl, Net.Blocks, Mdl.leaf, isTensor_iff]
  | _, _, _, _, _, .act _ _ _ _ _ _, _, _, _ => by simp only [Net.mdl, Net.Blocks, Mdl.leaf, isTensor_iff]
  | _, _, _, _, _, .flatten _ _ _ _ _, _, _, _ => by simp only [Net.mdl, Net.Blocks, Mdl.leaf, isTensor_iff]
  | _, _, _, _, _, .reshape _ _ _ _ _ _ _ _ _, _, _, _ => by simp only [Net.mdl, Net.Blocks, Mdl.leaf, isTensor_iff]
  | _, _, _, _, _, .l2norm _ _ _ _ _ _ _, _, _, _ => by simp only [Net.mdl, Net.Blocks, Mdl.leaf, isTensor_iff]
  | _, _, _, _, _, .conv _ _ _ _, _, _, _ => by simp only [Net.mdl, Net.Blocks, Mdl.leaf, isTensor_iff]
  | _, _, _, _, _, .upsample _ _ _ _ _ _ _ _ _, _, _, _ => by simp only [Net.mdl, Net.Blocks, Mdl.leaf, isTensor_iff]
  | _, _, _, _, _, .maxpool _ _, _, _, _ => by simp only [Net.mdl, Net.Blocks, MaxPool2d.poolMdl, isTensor_iff]
  | _, _, _, _, _, .seq id c, _, B, Z => by simp only [Net.mdl, Net.Blocks, seqMdl, Chain.mchain_blocks c _ B Z]
  | _, _, _, _, _, .skip id fid ch, _, B, Z => by simp only [Net.mdl, Net.Blocks, skipMdl, seqMdl, Chain.mchain_blocks ch _ B Z]
theorem Chain.mchain_blocks : {s s' : List Nat} → {n k p l : Nat} → (c : Chain s n s' k p l) → (vs : List (PyVal ℝ)) → (B : Nat) →
    (Z : Fin B → Matrix (Fin p) (Fin p) ℝ) → (c.mchain.blocks vs B Z ↔ c.Blocks vs B Z)
  | _, _, _, _, _, _, .nil _ _ _ _, _, _, _ => by simp only [Chain.mchain, MChain.blocks, Chain.Blocks]
  | _, _, _, _, _, _, .snoc c m, vs, B, Z => by
    simp only [Chain.mchain, MChain.blocks, Chain.Blocks, Chain.mchain_blocks c _ B, Net.mdl_blocks m _ B]
    rfl
end

mutual
theorem Net.good : {s s' : List Nat} → {n k p : Nat} → (N : Net s n s' k p) → N.ids.Nodup → Good N.mdl
  | _, _, _, _, _, .linear id wId bId i o hi ho, _ => by
    simp only [Net.mdl]
    refine good_leaf rfl (by simp) (by simp) hi ho ?_ ?_ (fun s hs => leafOk_linear wId bId hi ho s hs.1 hs.2)
    · intro s s' h hw
      exact ⟨by rw [h.param]; exact hw.1, fun b hb => by rw [h.param]; exact hw.2 b hb⟩
    · intro s s' h
      simp only [linearW, h]
  | _, _, _, _, _, .act a id s n hs hn, _ => by
    simp only [Net.mdl]
    exact good_leaf rfl hs hs hn hn (fun _ h => h) (fun _ => rfl) fun s _ => leafOk_act a hs
  | _, _, _, _, _, .flatten id s n hs hn, _ => by
    simp only [Net.mdl]
    exact good_leaf rfl hs (by simp) hn hn (fun _ h => h) (fun _ => rfl) fun s _ => leafOk_flatten hs
  | _, _, _, _, _, .reshape id s dims n hs hd hn z hz, _ => by
    simp only [Net.mdl]
    exact good_leaf rfl hs hd hn hn (fun _ h => h) (fun _ => rfl) fun s _ => leafOk_reshape hs hd hn hz
  | _, _, _, _, _, .l2norm id eps s n hs hr hn, _ => by
    simp only [Net.mdl]
    exact good_leaf rfl hs hs hn hn (fun _ h => h) (fun _ => rfl) fun _ _ => leafOk_l2 eps hs hr
  | _, _, _, _, _, .conv id wId bId g, _ => by
    simp only [Net.mdl]
    refine good_leafG (Conv2d.mod_eq g bId id wId) size_img size_img (Nat.mul_pos (Nat.mul_pos g.hc1 g.ph1) g.pw1)
      (Nat.mul_pos (Nat.mul_pos g.hc2 g.ph2) g.pw2) ?_ ?_ (fun s hs => Conv2d.leafB_dims g hs.1 hs.2) fun h => h.elim
    · intro s s' h hw
      exact ⟨by rw [h.param]; exact hw.1, fun b hb => by rw [h.param]; exact hw.2 b hb⟩
    · intro s s' h
      simp only [convW, h]
  | _, _, _, _, _, .upsample id c h w r hc hh hw hr, _ => by
    simp only [Net.mdl]
    exact good_leafG rfl size_img size_img (Nat.mul_pos (Nat.mul_pos hc hh) hw)
      (Nat.mul_pos (Nat.mul_pos hc (Nat.mul_pos hh hr)) (Nat.mul_pos hw hr)) (fun _ h => h) (fun _ => rfl)
      (fun _ _ => Upsample.leafB_upsample hh hw hr) fun h => h.elim
  | _, _, _, _, _, .maxpool id g, _ => by
    simp only [Net.mdl]
    exact MaxPool2d.good_pool g.hc g.fits
  | _, _, _, _, _, .seq id c, hnd => by
    simp only [Net.mdl]
    simp only [Net.ids] at hnd
    exact good_seq (Chain.good c (List.nodup_cons.1 hnd).2) (by rw [Chain.mchain_ids]; exact hnd)
  | _, _, _, _, _, .skip id fid ch, hnd => by
    simp only [Net.mdl]
    simp only [Net.ids] at hnd
    have h2 := (List.nodup_cons.1 hnd).2
    exact good_skip (good_seq (Chain.good ch (List.nodup_cons.1 h2).2) (by rw [Chain.mchain_ids]; exact h2)) trivial
theorem Chain.good : {s s' : List Nat} → {n k p l : Nat} → (c : Chain s n s' k p l) → c.ids.Nodup → c.mchain.AllGood
  | _, _, _, _, _, _, .nil _ _ hs hn, _ => by simp only [Chain.mchain, MChain.AllGood]; exact ⟨hs, hn⟩
  | _, _, _, _, _, _, .snoc c m, hnd => by
    simp only [Chain.ids, List.nodup_append] at hnd
    simp only [Chain.mchain, MChain.AllGood]
    exact ⟨Chain.good c hnd.1, Net.good m hnd.2.1⟩
end

end NNJ
