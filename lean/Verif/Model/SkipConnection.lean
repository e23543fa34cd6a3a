import Verif.Model.Sequential

/-!
# nnj/skipconnection.py

`F` is the inner Sequential `self._F`.
-/

namespace NNJ
namespace SkipConnection
open Tensor

variable {α : Type} [Zero α] [One α] [Add α] [Mul α]

/-- `None if val is None else val[:, l:]`.  nnj/skipconnection.py:57, 79, 107, 122, 126, 127, 152,
172, 201, 213, 215. -/
def tailVal (val : Option (Tensor α)) (l : Nat) : Res (Option (Tensor α)) :=
  match val with
  | none => .ok none
  | some v => do
    let n ← v.dim 1
    some <$> v.slice 1 l n

/-- nnj/skipconnection.py:17-18; `self._F(x)` goes through `__call__`, i.e. runs the hooks
registered on `_F` (there are none unless the user adds some). -/
def forward (F : Mod α) (x : Tensor α) : Prog α (Tensor α) := do
  let v ← F.call x
  (cat2 x v 1 : Res _)

/-- `if val is None: val = self.forward(x)`, nnj/skipconnection.py:31-32, 101-102, 193-194 -/
def getVal (F : Mod α) (x : Tensor α) (val : Option (Tensor α)) : Prog α (Tensor α) :=
  match val with
  | none => forward F x
  | some v => pure v

/-- nnj/skipconnection.py:21-38: note that `val` (the value of the whole module) is passed to `_F`. -/
def jacobian (F : Mod α) (nParams : Nat) (x : Tensor α) (val : Option (Tensor α)) (wrt : Wrt) :
    Prog α (Option (Tensor α)) := do
  let jac ← F.jacobian x val wrt
  let b ← (x.dim 0 : Res _)
  let l ← (x.numel0 : Res _)
  let _ ← getVal F x val
  match wrt with
  | .input => do
    let o ← ((onesLike x).reshape [b, l] : Res _)
    let identity ← (o.diagEmbed : Res _)
    let jac ← Prog.need jac
    let r ← (cat2 identity jac 1 : Res _)
    pure (some r)
  | .weight => do
    let jac ← Prog.need jac
    let r ← (cat2 (zeros [b, l, nParams]) jac 1 : Res _)
    pure (some r)
  | .other => pure none

/-- nnj/skipconnection.py:45-62 -/
def jvp (F : Mod α) (x : Tensor α) (val : Option (Tensor α)) (vector : Tensor α) (wrt : Wrt) :
    Prog α (Option (Tensor α)) := do
  let b ← (x.dim 0 : Res _)
  let l ← (x.numel0 : Res _)
  let tv ← (tailVal val l : Res _)
  let jvp ← F.jvp x tv vector wrt
  match wrt with
  | .input => do
    let jvp ← Prog.need jvp
    let r ← (cat2 vector jvp 1 : Res _)
    pure (some r)
  | .weight => do
    let z ← ((zerosLike x).reshape [b, l] : Res _)
    let jvp ← Prog.need jvp
    let r ← (cat2 z jvp 1 : Res _)
    pure (some r)
  | .other => pure none

/-- nnj/skipconnection.py:65-84 -/
def jmp (F : Mod α) (nParams : Nat) (x : Tensor α) (val : Option (Tensor α)) (matrix : Option (Tensor α))
    (wrt : Wrt) : Prog α (Option (Tensor α)) :=
  match matrix with
  | none => jacobian F nParams x val wrt
  | some matrix => do
    let b ← (x.dim 0 : Res _)
    let l ← (x.numel0 : Res _)
    let tv ← (tailVal val l : Res _)
    let jmp ← F.jmp x tv (some matrix) wrt
    match wrt with
    | .input => do
      let jmp ← Prog.need jmp
      let r ← (cat2 matrix jmp 1 : Res _)
      pure (some r)
    | .weight => do
      let q ← (matrix.dim 2 : Res _)
      let jmp ← Prog.need jmp
      let r ← (cat2 (zeros [b, l, q]) jmp 1 : Res _)
      pure (some r)
    | .other => pure none

/-- four blocks: `cat([cat([a, b], dim=2), cat([c, d], dim=2)], dim=1)`.  nnj/skipconnection.py:123-125, 128. -/
def blocks (a b c d : Tensor α) : Res (Tensor α) := do
  let top ← cat2 a b 2
  let bot ← cat2 c d 2
  cat2 top bot 1

/-- nnj/skipconnection.py:87-134 -/
def jmjTp (F : Mod α) (x : Tensor α) (val : Option (Tensor α)) (matrix : PyVal α) (wrt : Wrt)
    (fromDiag toDiag db : Bool) : Prog α (Option (Tensor α)) := do
  Prog.assert ((!db) || (db && fromDiag && toDiag))
  let val ← getVal F x val
  let b ← (x.dim 0 : Res _)
  let l1 ← (x.numel0 : Res _)
  let l2 ← (val.numel0 : Res _)
  let tv ← (tailVal (some val) l1 : Res _)
  let jmjTp ← F.jmjTp x tv matrix wrt fromDiag toDiag db
  match wrt with
  | .input => do
    let matrix ← match matrix with
      | .tensor t => pure t
      | _ => Prog.throw (if toDiag || fromDiag then .type else .attribute)
    match toDiag, fromDiag with
    | true, true => do
      let jmjTp ← Prog.need jmjTp
      let r ← (cat2 matrix jmjTp 1 : Res _)
      pure (some r)
    | true, false => do
      let d ← (einsum% "bii->bi" [matrix] : Res _)
      let jmjTp ← Prog.need jmjTp
      let r ← (cat2 d jmjTp 1 : Res _)
      pure (some r)
    | false, true => do
      let matrix ← (matrix.diagEmbed : Res _)
      let jmp ← Prog.need (← F.jmp x tv (some matrix) wrt)
      let jmpT ← (jmp.transpose12 : Res _)
      let jmjTp ← Prog.need jmjTp
      let r ← (blocks matrix jmpT jmp jmjTp : Res _)
      pure (some r)
    | false, false => do
      let jmp ← Prog.need (← F.jmp x tv (some matrix) wrt)
      let mT ← (matrix.transpose12 : Res _)
      let jmTp ← Prog.need (← F.jmp x tv (some mT) wrt)
      let mjTp ← (jmTp.transpose12 : Res _)
      let jmjTp ← Prog.need jmjTp
      let r ← (blocks matrix mjTp jmp jmjTp : Res _)
      pure (some r)
  | .weight => do
    if toDiag then do
      let z ← ((zerosLike x).reshape [b, l1] : Res _)
      let jmjTp ← Prog.need jmjTp
      let r ← (cat2 z jmjTp 1 : Res _)
      pure (some r)
    else do
      let jmjTp ← Prog.need jmjTp
      let r ← (cat2 (zeros [b, l2 - l1, l1]) jmjTp 2 : Res _)
      let r ← (cat2 (zeros [b, l1, l2]) r 1 : Res _)
      pure (some r)
  | .other => pure none

/-- nnj/skipconnection.py:141-156 -/
def vjp (F : Mod α) (x : Tensor α) (val : Option (Tensor α)) (vector : Tensor α) (wrt : Wrt) :
    Prog α (Option (Tensor α)) := do
  let l ← (x.numel0 : Res _)
  let tv ← (tailVal val l : Res _)
  let n ← (vector.dim 1 : Res _)
  let vTail ← (vector.slice 1 l n : Res _)
  let vjp ← F.vjp x tv vTail wrt
  match wrt with
  | .input => do
    let head ← (vector.slice 1 0 l : Res _)
    let vjp ← Prog.need vjp
    let r ← (head.add vjp : Res _)
    pure (some r)
  | .weight => pure vjp
  | .other => pure none

/-- nnj/skipconnection.py:159-176 -/
def mjp (F : Mod α) (nParams : Nat) (x : Tensor α) (val : Option (Tensor α)) (matrix : Option (Tensor α))
    (wrt : Wrt) : Prog α (Option (Tensor α)) :=
  match matrix with
  | none => jacobian F nParams x val wrt
  | some matrix => do
    let l ← (x.numel0 : Res _)
    let tv ← (tailVal val l : Res _)
    let n ← (matrix.dim 2 : Res _)
    let mTail ← (matrix.slice 2 l n : Res _)
    let mjp ← F.mjp x tv (some mTail) wrt
    match wrt with
    | .input => do
      let head ← (matrix.slice 2 0 l : Res _)
      let mjp ← Prog.need mjp
      let r ← (head.add mjp : Res _)
      pure (some r)
    | .weight => pure mjp
    | .other => pure none

/-- `matrix[:, r0:r1, c0:c1]`.  nnj/skipconnection.py:202, 213, 215, 222, 224. -/
def slice2 (t : Tensor α) (r0 r1 c0 c1 : Nat) : Res (Tensor α) := do
  let t ← t.slice 1 r0 r1
  t.slice 2 c0 c1

/-- nnj/skipconnection.py:179-226 -/
def jTmjp (F : Mod α) (x : Tensor α) (val : Option (Tensor α)) (matrix : Option (Tensor α)) (wrt : Wrt)
    (fromDiag toDiag db : Bool) : Prog α (PyVal α) := do
  Prog.assert ((!db) || (db && fromDiag && toDiag))
  let val ← getVal F x val
  let (matrix, fromDiag) := match matrix with
    | none => (onesLike val, true)
    | some m => (m, fromDiag)
  let l ← (x.numel0 : Res _)
  let tv ← (tailVal (some val) l : Res _)
  let n ← (matrix.dim 1 : Res _)
  let sub ← (if fromDiag then matrix.slice 1 l n
    else do
      let n2 ← matrix.dim 2
      slice2 matrix l n l n2 : Res _)
  let jTmjp ← F.jTmjp x tv (some sub) wrt fromDiag toDiag db
  match wrt with
  | .input => do
    let jTmjp ← (jTmjp.toTensor : Res _)
    match fromDiag, toDiag with
    | true, true => do
      let head ← (matrix.slice 1 0 l : Res _)
      let r ← (jTmjp.add head : Res _)
      pure (.tensor r)
    | true, false => do
      let head ← (matrix.slice 1 0 l : Res _)
      let head ← (head.diagEmbed : Res _)
      let r ← (jTmjp.add head : Res _)
      pure (.tensor r)
    | false, toDiag => do
      let n2 ← (matrix.dim 2 : Res _)
      let ur ← (slice2 matrix 0 l l n2 : Res _)
      let mjp ← Prog.need (← F.mjp x tv (some ur) wrt)
      let ll ← (slice2 matrix l n 0 l : Res _)
      let llT ← (ll.transpose12 : Res _)
      let jTmpT ← Prog.need (← F.mjp x tv (some llT) wrt)
      let jTmp ← (jTmpT.transpose12 : Res _)
      let ul ← (slice2 matrix 0 l 0 l : Res _)
      if toDiag then do
        let d1 ← (einsum% "bii->bi" [mjp] : Res _)
        let d2 ← (einsum% "bii->bi" [jTmp] : Res _)
        let d3 ← (einsum% "bii->bi" [ul] : Res _)
        let r ← (jTmjp.add d1 : Res _)
        let r ← (r.add d2 : Res _)
        let r ← (r.add d3 : Res _)
        pure (.tensor r)
      else do
        let r ← (jTmjp.add mjp : Res _)
        let r ← (r.add jTmp : Res _)
        let r ← (r.add ul : Res _)
        pure (.tensor r)
  | .weight => pure jTmjp
  | .other => pure .none

/-- The SkipConnection object (skipconnection.py:10-15) around the inner Sequential `F`. -/
def mod (id : Nat) (F : Mod α) : Mod α where
  id := id
  nParams := F.nParams
  params := F.params
  forward := forward F
  jacobian := jacobian F F.nParams
  jvp := jvp F
  jmp := jmp F F.nParams
  jmjTp := jmjTp F
  vjp := vjp F
  mjp := mjp F F.nParams
  jTmjp := jTmjp F

/-- Constructor `SkipConnection(*ms, add_hooks=addHooks)`: object `id`, inner Sequential `fid`.
nnj/skipconnection.py:11-15. -/
def init (id fid : Nat) (ms : List (Mod α)) (addHooks : Bool := true) : Prog α (Mod α) := do
  let F ← Sequential.init fid ms addHooks
  pure (mod id F)

end SkipConnection
end NNJ
