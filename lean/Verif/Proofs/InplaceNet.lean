import Verif.Proofs.InplaceMdl

/-! Networks with overwritten feature maps. -/

namespace NNJ
open Tensor Matrix

mutual
/-- the network, with `relu ∘ layer` for layers whose output is overwritten; `cor`: the output of the network itself is -/
noncomputable def Net.ipMdl (ip : Nat → Bool) : {s s' : List Nat} → {n k p : Nat} → Net s n s' k p → Bool → Mdl s n s' k p
  | _, _, _, _, _, .linear id wId bId i o hi ho, cor => if cor then (Net.linear id wId bId i o hi ho).mdl.post else (Net.linear id wId bId i o hi ho).mdl
  | _, _, _, _, _, .act a id s n hs hn, cor =>
    if cor then Mdl.leaf (Activation.toMod (Activation.layer (fun r => max (a.fn r) 0) a.diagOf) id) s n s n 0 (a.corSem n) (fun _ => True) fun _ _ => 0
    else (Net.act a id s n hs hn).mdl
  | _, _, _, _, _, .flatten id s n hs hn, _ => (Net.flatten id s n hs hn).mdl
  | _, _, _, _, _, .reshape id s dims n hs hd hn z hz, _ => (Net.reshape id s dims n hs hd hn z hz).mdl
  | _, _, _, _, _, .l2norm id eps s n hs hr hn, cor => if cor then (Net.l2norm id eps s n hs hr hn).mdl.post else (Net.l2norm id eps s n hs hr hn).mdl
  | _, _, _, _, _, .conv id wId bId g, cor => if cor then (Net.conv id wId bId g).mdl.post else (Net.conv id wId bId g).mdl
  | _, _, _, _, _, .upsample id c h w r hc hh hw hr, cor =>
    if cor then (Net.upsample id c h w r hc hh hw hr).mdl.post else (Net.upsample id c h w r hc hh hw hr).mdl
  | _, _, _, _, _, .maxpool id g, cor => if cor then (Net.maxpool id g).mdl.post else (Net.maxpool id g).mdl
  | _, _, _, _, _, .seq id c, cor => seqMdl id (c.ipMchain ip cor)
  | _, _, _, _, _, .skip id fid ch, cor => if cor then (skipMdl id (seqMdl fid (ch.ipMchain ip false))).post else skipMdl id (seqMdl fid (ch.ipMchain ip false))
noncomputable def Chain.ipMchain (ip : Nat → Bool) : {s s' : List Nat} → {n k p l : Nat} → Chain s n s' k p l → Bool → MChain s n s' k p l
  | _, _, _, _, _, _, .nil s n _ _, _ => .nil s n
  | _, _, _, _, _, _, .snoc c m, cor => .snoc (c.ipMchain ip (m.overwrites ip cor)) (m.ipMdl ip cor)
end

/-- same object, parameters and reverse-mode methods -/
structure IpSim {sI sO : List Nat} {n k p : Nat} (M M' : Mdl sI n sO k p) : Prop where
  id : M'.m.id = M.m.id
  nParams : M'.m.nParams = M.m.nParams
  ids : M'.ids = M.ids
  wired : ∀ st, M'.wired st ↔ M.wired st
  w : M'.w = M.w
  blocks : M'.blocks = M.blocks
  back : SameBack M.m M'.m

structure CSim {sI sO : List Nat} {n k p l : Nat} (c c' : MChain sI n sO k p l) : Prop where
  nParams : Sequential.nParams c'.mods = Sequential.nParams c.mods
  ids : c'.ids = c.ids
  wired : ∀ q st, c'.Wired q st ↔ c.Wired q st
  w : c'.w = c.w
  blocks : c'.blocks = c.blocks
  back : List.Forall₂ SameBack c.mods c'.mods

section
variable {sI sO : List Nat} {n k p l : Nat}

theorem IpSim.refl (M : Mdl sI n sO k p) : IpSim M M := ⟨rfl, rfl, rfl, fun _ => Iff.rfl, rfl, rfl, .refl _⟩

theorem IpSim.post {M M' : Mdl sI n sO k p} (h : IpSim M M') : IpSim M M'.post := ⟨h.id, h.nParams, h.ids, h.wired, h.w, h.blocks, ⟨h.back.vjp, h.back.mjp, h.back.jTmjp⟩⟩

theorem CSim.nil (s : List Nat) (n : Nat) : CSim (MChain.nil s n) (MChain.nil s n) := ⟨rfl, rfl, fun _ _ => Iff.rfl, rfl, rfl, .nil⟩

theorem CSim.snoc {s' : List Nat} {j q : Nat} {c c' : MChain sI n s' j q l} {M M' : Mdl s' j sO k p} (h : CSim c c') (hm : IpSim M M') :
    CSim (c.snoc M) (c'.snoc M') := by
  refine ⟨?_, ?_, fun q st => ?_, ?_, ?_, ?_⟩
  · have := h.nParams
    simp only [Sequential.nParams] at this
    simp [Sequential.nParams, MChain.mods, this, hm.nParams]
  · simp only [MChain.ids, h.ids, hm.ids]
  · simp only [MChain.Wired, h.wired, hm.wired, hm.id]
  · funext s; simp only [MChain.w, h.w, hm.w]
  · funext vs B Z; simp only [MChain.blocks, h.blocks, hm.blocks]
  · exact List.rel_append h.back (.cons hm.back .nil)

theorem IpSim.seq {q : Nat} {c c' : MChain sI n sO k p l} (h : CSim c c') : IpSim (seqMdl q c) (seqMdl q c') := by
  refine ⟨rfl, h.nParams, ?_, fun st => ?_, h.w, ?_, (ShapeBack.seq h.back).same⟩
  · simp only [seqMdl, h.ids]
  · simp only [seqMdl, h.wired]
  · funext v B Z; simp only [seqMdl, h.blocks]

theorem IpSim.skip {a c q : Nat} {r : List Nat} {n k p l : Nat} {id : Nat} {ch ch' : MChain (a :: r) n (c :: r) k p l} (h : CSim ch ch') :
    IpSim (skipMdl id (seqMdl q ch)) (skipMdl id (seqMdl q ch')) := by
  have hs := IpSim.seq (q := q) h
  refine ⟨rfl, hs.nParams, ?_, fun st => ?_, hs.w, hs.blocks, ((ShapeBack.seq h.back).skip hs.nParams).same⟩
  · simp only [skipMdl, hs.ids]
  · simp only [skipMdl, hs.wired, hs.id]

end

mutual
theorem Net.ip_sim (ip : Nat → Bool) : {s s' : List Nat} → {n k p : Nat} → (N : Net s n s' k p) → (cor : Bool) → IpSim N.mdl (N.ipMdl ip cor)
  | _, _, _, _, _, .linear id wId bId i o hi ho, cor => by
    cases cor
    · exact IpSim.refl _
    · exact (IpSim.refl _).post
  | _, _, _, _, _, .act a id s n hs hn, cor => by
    cases cor
    · exact IpSim.refl _
    · refine ⟨rfl, rfl, rfl, fun _ => Iff.rfl, rfl, rfl, ?_⟩
      cases a <;> exact ⟨fun _ _ _ _ => rfl, fun _ _ _ _ => rfl, fun _ _ _ _ _ _ _ => rfl⟩
  | _, _, _, _, _, .flatten id s n hs hn, _ => IpSim.refl _
  | _, _, _, _, _, .reshape id s dims n hs hd hn z hz, _ => IpSim.refl _
  | _, _, _, _, _, .l2norm id eps s n hs hr hn, cor => by
    cases cor
    · exact IpSim.refl _
    · exact (IpSim.refl _).post
  | _, _, _, _, _, .conv id wId bId g, cor => by
    cases cor
    · exact IpSim.refl _
    · exact (IpSim.refl _).post
  | _, _, _, _, _, .upsample id c h w r hc hh hw hr, cor => by
    cases cor
    · exact IpSim.refl _
    · exact (IpSim.refl _).post
  | _, _, _, _, _, .maxpool id g, cor => by
    cases cor
    · exact IpSim.refl _
    · exact (IpSim.refl _).post
  | _, _, _, _, _, .seq id c, cor => by
    simp only [Net.mdl, Net.ipMdl]
    exact IpSim.seq (Chain.ip_sim ip c cor)
  | _, _, _, _, _, .skip id fid ch, cor => by
    have h := IpSim.skip (id := id) (q := fid) (Chain.ip_sim ip ch false)
    cases cor
    · simp only [Net.mdl, Net.ipMdl]; exact h
    · simp only [Net.mdl, Net.ipMdl]; exact h.post
theorem Chain.ip_sim (ip : Nat → Bool) : {s s' : List Nat} → {n k p l : Nat} → (c : Chain s n s' k p l) → (cor : Bool) → CSim c.mchain (c.ipMchain ip cor)
  | _, _, _, _, _, _, .nil s n _ _, _ => by simp only [Chain.mchain, Chain.ipMchain]; exact CSim.nil s n
  | _, _, _, _, _, _, .snoc c m, cor => by
    simp only [Chain.mchain, Chain.ipMchain]
    exact (Chain.ip_sim ip c _).snoc (Net.ip_sim ip m cor)
end

theorem good_corAct (a : Act) (id : Nat) {s : List Nat} {n : Nat} (hs : size s = n) (hn : 0 < n) :
    Good (Mdl.leaf (Activation.toMod (Activation.layer (fun r => max (a.fn r) 0) a.diagOf) id) s n s n 0 (a.corSem n) (fun _ => True) fun _ _ => 0) :=
  good_leaf rfl hs hs hn hn (fun _ h => h) (fun _ => rfl) fun _ _ => leafOk_elementwise (g := fun r => max (a.fn r) 0) (d := fun r => a.diagFn r (max (a.fn r) 0)) hs fun hx hv => a.isBatch_diagOf hx hv

mutual
theorem Net.ip_good (ip : Nat → Bool) : {s s' : List Nat} → {n k p : Nat} → (N : Net s n s' k p) → (cor : Bool) → N.ids.Nodup → Good (N.ipMdl ip cor)
  | _, _, _, _, _, .linear id wId bId i o hi ho, cor, hnd => by
    have h := Net.good (.linear id wId bId i o hi ho) hnd
    cases cor
    · exact h
    · exact good_post h (shapeOnly_linear ..)
  | _, _, _, _, _, .act a id s n hs hn, cor, hnd => by
    cases cor
    · exact Net.good (.act a id s n hs hn) hnd
    · exact good_corAct a id hs hn
  | _, _, _, _, _, .flatten id s n hs hn, _, hnd => Net.good (.flatten id s n hs hn) hnd
  | _, _, _, _, _, .reshape id s dims n hs hd hn z hz, _, hnd => Net.good (.reshape id s dims n hs hd hn z hz) hnd
  | _, _, _, _, _, .l2norm id eps s n hs hr hn, cor, hnd => by
    have h := Net.good (.l2norm id eps s n hs hr hn) hnd
    cases cor
    · exact h
    · exact good_post h (shapeOnly_l2 ..)
  | _, _, _, _, _, .conv id wId bId g, cor, hnd => by
    have h := Net.good (.conv id wId bId g) hnd
    cases cor
    · exact h
    · exact good_post h (shapeOnly_conv ..)
  | _, _, _, _, _, .upsample id c h w r hc hh hw hr, cor, hnd => by
    have h := Net.good (.upsample id c h w r hc hh hw hr) hnd
    cases cor
    · exact h
    · exact good_post h (shapeOnly_upsample ..)
  | _, _, _, _, _, .maxpool id g, cor, hnd => by
    have h := Net.good (.maxpool id g) hnd
    cases cor
    · exact h
    · exact good_post h (shapeOnly_pool ..)
  | _, _, _, _, _, .seq id c, cor, hnd => by
    simp only [Net.ids] at hnd
    simp only [Net.ipMdl]
    exact good_seq (Chain.ip_good ip c cor (List.nodup_cons.1 hnd).2) (by rw [(Chain.ip_sim ip c cor).ids, Chain.mchain_ids]; exact hnd)
  | _, _, _, _, _, .skip id fid ch, cor, hnd => by
    simp only [Net.ids] at hnd
    have h2 := (List.nodup_cons.1 hnd).2
    have h := good_skip (id := id) (good_seq (q := fid) (Chain.ip_good ip ch false (List.nodup_cons.1 h2).2)
      (by rw [(Chain.ip_sim ip ch false).ids, Chain.mchain_ids]; exact h2)) trivial
    cases cor
    · exact h
    · exact good_post h ((ShapeBack.seq (List.forall₂_same.2 fun _ _ => SameBack.refl _)).skip rfl).shapeOnly
theorem Chain.ip_good (ip : Nat → Bool) : {s s' : List Nat} → {n k p l : Nat} → (c : Chain s n s' k p l) → (cor : Bool) → c.ids.Nodup →
    (c.ipMchain ip cor).AllGood
  | _, _, _, _, _, _, .nil _ _ hs hn, _, _ => by simp only [Chain.ipMchain, MChain.AllGood]; exact ⟨hs, hn⟩
  | _, _, _, _, _, _, .snoc c m, cor, hnd => by
    simp only [Chain.ids, List.nodup_append] at hnd
    simp only [Chain.ipMchain, MChain.AllGood]
    exact ⟨Chain.ip_good ip c _ hnd.1, Net.ip_good ip m cor hnd.2.1⟩
end

theorem cor_leaf {n k p : Nat} {S : Sem n k p} {M : Mdl s n s' k p} (h : M.S = S) (cor : Bool) : Cor S (if cor then M.post else M).S false cor := by
  subst h
  cases cor
  · exact Cor.refl _
  · exact (Cor.refl _).post

mutual
theorem Net.ip_cor (ip : Nat → Bool) : {s s' : List Nat} → {n k p : Nat} → (N : Net s n s' k p) → (cor : Bool) → N.SkipsSafe ip →
    Cor N.sem (N.ipMdl ip cor).S (N.overwrites ip cor) cor
  | _, _, _, _, _, .linear id wId bId i o hi ho, cor, _ => by
    simp only [Net.ipMdl, Net.overwrites]; exact cor_leaf (Net.mdl_S _) cor
  | _, _, _, _, _, .act a id s n hs hn, cor, _ => by
    simp only [Net.ipMdl, Net.overwrites, Net.sem]
    have h : Cor (a.sem n) (if cor then a.corSem n else a.sem n) (a.inplace ip id) cor := by
      have h0 : Cor (a.sem n) (if cor then a.corSem n else a.sem n) false cor := by
        cases cor
        · exact Cor.refl _
        · exact cor_act a n
      cases a with
      | relu =>
        simp only [Act.inplace]
        cases ip id
        · exact h0
        · exact cor_relu n cor
      | _ => exact h0
    cases cor <;> exact h
  | _, _, _, _, _, .flatten id s n hs hn, cor, _ => by simp only [Net.ipMdl, Net.overwrites, Net.sem, Net.mdl]; exact Cor.reshape n cor
  | _, _, _, _, _, .reshape id s dims n hs hd hn z hz, cor, _ => by simp only [Net.ipMdl, Net.overwrites, Net.sem, Net.mdl]; exact Cor.reshape n cor
  | _, _, _, _, _, .l2norm id eps s n hs hr hn, cor, _ => by
    simp only [Net.ipMdl, Net.overwrites]; exact cor_leaf (Net.mdl_S _) cor
  | _, _, _, _, _, .conv id wId bId g, cor, _ => by
    simp only [Net.ipMdl, Net.overwrites]; exact cor_leaf (Net.mdl_S _) cor
  | _, _, _, _, _, .upsample id c h w r hc hh hw hr, cor, _ => by
    simp only [Net.ipMdl, Net.overwrites]; exact cor_leaf (Net.mdl_S _) cor
  | _, _, _, _, _, .maxpool id g, cor, _ => by
    simp only [Net.ipMdl, Net.overwrites]; exact cor_leaf (Net.mdl_S _) cor
  | _, _, _, _, _, .seq id c, cor, h => by
    simp only [Net.SkipsSafe] at h
    simp only [Net.ipMdl, Net.overwrites, Net.sem, seqMdl]
    exact Chain.ip_cor ip c cor h
  | _, _, _, _, _, .skip id fid ch, cor, h => by
    simp only [Net.SkipsSafe] at h
    simp only [Net.ipMdl, Net.overwrites, Net.sem]
    have h1 := Chain.ip_cor ip ch false h.2
    rw [h.1] at h1
    cases cor
    · exact h1.skip
    · exact h1.skip.post
theorem Chain.ip_cor (ip : Nat → Bool) : {s s' : List Nat} → {n k p l : Nat} → (c : Chain s n s' k p l) → (cor : Bool) → c.SkipsSafe ip →
    Cor c.sem (c.ipMchain ip cor).S (c.overwrites ip cor) cor
  | _, _, _, _, _, _, .nil _ n hs hn, cor, _ => by simp only [Chain.ipMchain, Chain.sem, MChain.S, Chain.overwrites]; exact Cor.id n cor
  | _, _, _, _, _, _, .snoc c m, cor, h => by
    simp only [Chain.SkipsSafe] at h
    simp only [Chain.ipMchain, Chain.sem, MChain.S, Chain.overwrites]
    exact (Chain.ip_cor ip c _ h.1).comp (Net.ip_cor ip m cor h.2)
end

/-! ### the same for the squared entries -/

theorem cor_leafQ {n k p : Nat} {S : Sem n k p} {M : Mdl s n s' k p} (h : M.S = S) (cor : Bool) : Cor S.sqd (if cor then M.post else M).S.sqd false cor := by
  subst h
  cases cor
  · exact Cor.refl _
  · exact (Cor.refl _).post

mutual
theorem Net.ip_corQ (ip : Nat → Bool) : {s s' : List Nat} → {n k p : Nat} → (N : Net s n s' k p) → (cor : Bool) → N.SkipsSafe ip →
    Cor N.sem.sqd (N.ipMdl ip cor).S.sqd (N.overwrites ip cor) cor
  | _, _, _, _, _, .linear id wId bId i o hi ho, cor, _ => by
    simp only [Net.ipMdl, Net.overwrites]; exact cor_leafQ (Net.mdl_S _) cor
  | _, _, _, _, _, .act a id s n hs hn, cor, _ => by
    simp only [Net.ipMdl, Net.overwrites, Net.sem]
    have h : Cor (a.sem n).sqd (if cor then (a.corSem n).sqd else (a.sem n).sqd) (a.inplace ip id) cor := by
      have h0 : Cor (a.sem n).sqd (if cor then (a.corSem n).sqd else (a.sem n).sqd) false cor := by
        cases cor
        · exact Cor.refl _
        · exact cor_actQ a n
      cases a with
      | relu =>
        simp only [Act.inplace]
        cases ip id
        · exact h0
        · exact cor_reluQ n cor
      | _ => exact h0
    cases cor <;> exact h
  | _, _, _, _, _, .flatten id s n hs hn, cor, _ => by simp only [Net.ipMdl, Net.overwrites, Net.sem, Net.mdl]; exact Cor.reshapeQ n cor
  | _, _, _, _, _, .reshape id s dims n hs hd hn z hz, cor, _ => by simp only [Net.ipMdl, Net.overwrites, Net.sem, Net.mdl]; exact Cor.reshapeQ n cor
  | _, _, _, _, _, .l2norm id eps s n hs hr hn, cor, _ => by
    simp only [Net.ipMdl, Net.overwrites]; exact cor_leafQ (Net.mdl_S _) cor
  | _, _, _, _, _, .conv id wId bId g, cor, _ => by
    simp only [Net.ipMdl, Net.overwrites]; exact cor_leafQ (Net.mdl_S _) cor
  | _, _, _, _, _, .upsample id c h w r hc hh hw hr, cor, _ => by
    simp only [Net.ipMdl, Net.overwrites]; exact cor_leafQ (Net.mdl_S _) cor
  | _, _, _, _, _, .maxpool id g, cor, _ => by
    simp only [Net.ipMdl, Net.overwrites]; exact cor_leafQ (Net.mdl_S _) cor
  | _, _, _, _, _, .seq id c, cor, h => by
    simp only [Net.SkipsSafe] at h
    simp only [Net.ipMdl, Net.overwrites, Net.sem, seqMdl]
    exact Chain.ip_corQ ip c cor h
  | _, _, _, _, _, .skip id fid ch, cor, h => by
    simp only [Net.SkipsSafe] at h
    simp only [Net.ipMdl, Net.overwrites, Net.sem]
    have h1 := Chain.ip_corQ ip ch false h.2
    rw [h.1] at h1
    cases cor
    · exact h1.skip
    · exact h1.skip.post
theorem Chain.ip_corQ (ip : Nat → Bool) : {s s' : List Nat} → {n k p l : Nat} → (c : Chain s n s' k p l) → (cor : Bool) → c.SkipsSafe ip →
    Cor c.sem.sqd (c.ipMchain ip cor).S.sqd (c.overwrites ip cor) cor
  | _, _, _, _, _, _, .nil _ n hs hn, cor, _ => by simp only [Chain.ipMchain, Chain.sem, MChain.S, Chain.overwrites]; exact Cor.id n cor
  | _, _, _, _, _, _, .snoc c m, cor, h => by
    simp only [Chain.SkipsSafe] at h
    simp only [Chain.ipMchain, Chain.sem, MChain.S, Chain.overwrites]
    exact (Chain.ip_corQ ip c _ h.1).comp (Net.ip_corQ ip m cor h.2)
end

end NNJ
