import Verif.Spec.Storage
import Verif.Proofs.Copy
import Verif.Proofs.Weights

/-! # The state with storages refines the state without -/

namespace NNJ
namespace Heap

variable {h h' : Heap ℝ}

theorem setLoop_mem (v : View) (is : List Nat) (p : Nat) (h : Heap ℝ) : (setLoop v is p h).2.mem = h.mem ∧ (setLoop v is p h).2.rest = h.rest := by
  induction is generalizing p h with
  | nil => exact ⟨rfl, rfl⟩
  | cons i is ih =>
    simp only [setLoop]
    split
    · exact ih _ _
    · exact ⟨rfl, rfl⟩

theorem setLoop_view (v : View) (is : List Nat) (p : Nat) (h : Heap ℝ) {j : Nat} (hj : j ∉ is) : (setLoop v is p h).2.view j = h.view j := by
  induction is generalizing p h with
  | nil => rfl
  | cons i is ih =>
    simp only [List.mem_cons, not_or] at hj
    simp only [setLoop]
    split
    · rw [ih _ _ hj.2]; exact if_neg hj.1
    · rfl

theorem store_setData (i : Nat) (v : View) (h : Heap ℝ) :
    (h.setData i v).store = { h.store with param := fun j => if j = i then h.read v else h.store.param j } := by
  simp only [store, setData]
  congr 1
  funext j
  by_cases e : j = i
  · simp [e, read]
  · simp [e, read]

/-- `set_weight` with storages does to the values what `set_weight` without storages does -/
theorem setLoop_store (v : View) (is : List Nat) (p : Nat) (h : Heap ℝ) :
    setWeightLoop (h.read v) is p h.store = ((setLoop v is p h).1, (setLoop v is p h).2.store) := by
  induction is generalizing p h with
  | nil => rfl
  | cons i is ih =>
    simp only [setLoop, setWeightLoop]
    have e1 : (h.store.param i).numel = size (h.view i).shape := rfl
    have e2 : (h.read v).numel = size v.shape := rfl
    rw [e1, e2]
    split
    · rw [← ih, store_setData]
      show setWeightLoop (h.read v) is _ _ = setWeightLoop (h.read v) is _ _
      refine congrArg _ ?_
      simp only [read, store, Nat.add_assoc]
    · rfl

/-- the parameters are consecutive views into `w`, from entry `p` on -/
def Linked (w : View) : List Nat → Nat → Heap ℝ → Prop
  | [], _, _ => True
  | i :: is, p, h => h.view i = ⟨w.buf, w.off + p, (h.view i).shape⟩ ∧ p + size (h.view i).shape ≤ size w.shape ∧
      Linked w is (p + size (h.view i).shape) h

theorem Linked.congr {w : View} {is : List Nat} {p : Nat} (hv : ∀ i ∈ is, h'.view i = h.view i) (hl : Linked w is p h) : Linked w is p h' := by
  induction is generalizing p with
  | nil => trivial
  | cons i is ih =>
    simp only [Linked] at hl ⊢
    rw [hv i (by simp)]
    exact ⟨hl.1, hl.2.1, ih (fun j hj => hv j (by simp [hj])) hl.2.2⟩

theorem setLoop_linked {w : View} {is : List Nat} (hnd : is.Nodup) {p : Nat} (hr : (setLoop w is p h).1 = .ok ()) : Linked w is p (setLoop w is p h).2 := by
  induction is generalizing p h with
  | nil => trivial
  | cons i is ih =>
    rw [List.nodup_cons] at hnd
    simp only [setLoop] at hr ⊢
    split at hr
    · rename_i hle
      rw [if_pos hle]
      have hv : (setLoop w is (p + size (h.view i).shape) (h.setData i ⟨w.buf, w.off + p, (h.view i).shape⟩)).2.view i = ⟨w.buf, w.off + p, (h.view i).shape⟩ := by
        rw [setLoop_view _ _ _ _ hnd.1]; exact if_pos rfl
      simp only [Linked]
      rw [hv]
      exact ⟨rfl, hle, ih hnd.2 hr⟩
    · cases hr

theorem Linked.setLoop {w : View} {is : List Nat} {p : Nat} (hl : Linked w is p h) : setLoop w is p h = (.ok (), h) := by
  induction is generalizing p with
  | nil => rfl
  | cons i is ih =>
    simp only [Linked] at hl
    simp only [Heap.setLoop]
    rw [if_pos hl.2.1, ← hl.1]
    have : h.setData i (h.view i) = h := by
      simp only [setData]
      congr 1
      funext j
      by_cases e : j = i
      · rw [if_pos e, e]
      · rw [if_neg e]
    rw [this]
    exact ih hl.2.2

end Heap

theorem dedupFirst_nodup' (l seen : List Nat) : (dedupFirst seen l).Nodup ∧ ∀ i ∈ dedupFirst seen l, i ∉ seen := by
  induction l generalizing seen with
  | nil => simp [dedupFirst]
  | cons a l ih =>
    simp only [dedupFirst]
    split
    · exact ih seen
    · rename_i ha
      obtain ⟨h1, h2⟩ := ih (a :: seen)
      refine ⟨List.nodup_cons.2 ⟨fun h => h2 a h (by simp), h1⟩, fun i hi => ?_⟩
      rcases List.mem_cons.1 hi with rfl | hi
      · exact ha
      · exact fun h => h2 i hi (by simp [h])

theorem HeapOp.after_view (o : HeapOp) (h : Heap ℝ) {ps : List Nat} (ho : o.Spares ps) {i : Nat} (hi : i ∈ ps) : (o.after h).view i = h.view i := by
  cases o with
  | write b k a => rfl
  | setWeight N v => exact Heap.setLoop_view _ _ _ _ fun hm => ho i hi (mem_of_mem_dedupFirst hm)
  | use N e he => rfl

theorem runOps_view (os : List HeapOp) (h : Heap ℝ) {ps : List Nat} (ho : ∀ o ∈ os, o.Spares ps) {i : Nat} (hi : i ∈ ps) : (runOps os h).view i = h.view i := by
  induction os generalizing h with
  | nil => rfl
  | cons o os ih =>
    rw [runOps, ih _ fun o ho' => ho o (by simp [ho'])]
    exact o.after_view h (ho o (by simp)) hi

/-- an operation keeps shapes, hooks and existing caches -/
theorem HeapOp.keeps (o : HeapOp) (h : Heap ℝ) : Keeps h.store (o.after h).store := by
  cases o with
  | write b k a => exact ⟨fun _ => rfl, rfl, fun _ h => h⟩
  | setWeight N v =>
    have := (Event.keeps N.net.tame h.store (.setWeight (h.read v)))
    simp only [Event.after, Mod.setWeight] at this
    rw [Heap.setLoop_store] at this
    exact this
  | use N e he =>
    have := (Event.keeps N.net.tame h.store e)
    exact ⟨fun _ => rfl, this.hooks, this.some⟩

theorem runOps_keeps (os : List HeapOp) (h : Heap ℝ) : Keeps h.store (runOps os h).store := by
  induction os generalizing h with
  | nil => exact .refl
  | cons o os ih => exact (o.keeps h).trans (ih _)

end NNJ
