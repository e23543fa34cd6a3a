import Verif.Model.Basic

/-!
# nnj/sequential.py

A Sequential is its identity `id`, the list of its children and the flag `add_hooks`.  Loops over
`range(len - 1, -1, -1)` are recursions on the number `k + 1` of layers still to process.
-/

namespace NNJ
namespace Sequential
open Tensor

variable {α : Type}

/-- `self._n_params`, nnj/sequential.py:14-18 -/
def nParams (ms : List (Mod α)) : Nat := (ms.map Mod.nParams).sum

/-- `self.feature_maps[k]`: AttributeError when the attribute is missing, IndexError out of range.
nnj/sequential.py:151, 152, 185, 186, 197, 198, 240, 246, 277, 283, 316, 317, 331, 332. -/
def fmap (id k : Nat) : Prog α (Tensor α) := fun s =>
  match s.fmaps id with
  | none => (.error .attribute, s)
  | some l =>
    match l[k]? with
    | some t => (.ok t, s)
    | none => (.error .index, s)

/-- `self._modules_list[k]`.  nnj/sequential.py:150, 184, 196, 240, 246, 277, 283, 315, 330. -/
def child (ms : List (Mod α)) (k : Nat) : Prog α (Mod α) := fun s =>
  match ms[k]? with
  | some m => (.ok m, s)
  | none => (.error .index, s)

/-- the loop of `forward`, nnj/sequential.py:33-36 -/
def run : List (Mod α) → Tensor α → Prog α (Tensor α)
  | [], x => pure x
  | m :: ms, x => do
    let v ← m.call x
    run ms v

/-- nnj/sequential.py:30-36 -/
def forward (id : Nat) (addHooks : Bool) (ms : List (Mod α)) (x : Tensor α) : Prog α (Tensor α) := do
  if addHooks then
    Prog.modify fun s => { s with fmaps := fun j => if j = id then some [x] else s.fmaps j }
  run ms x

/-- `if val is None: val = self.forward(x)`.  nnj/sequential.py:141-142, 232-233, 267-268, 305-306. -/
def getVal (id : Nat) (addHooks : Bool) (ms : List (Mod α)) (x : Tensor α) (val : Option (Tensor α)) :
    Prog α (Tensor α) :=
  match val with
  | none => forward id addHooks ms x
  | some v => pure v

/-- loop of `jvp` wrt input, nnj/sequential.py:62-66 -/
def jvpInput : List (Mod α) → Tensor α → Tensor α → Prog α (Tensor α)
  | [], _, vector => pure vector
  | m :: ms, x, vector => do
    let val ← m.call x
    let vector ← Prog.need (← m.jvp x (some val) vector .input)
    jvpInput ms val vector

/-- `acc += new` where either may be `None`, nnj/sequential.py:74-78 -/
def accum [Add α] (acc new : Option (Tensor α)) : Res (Option (Tensor α)) :=
  match new with
  | none => .ok acc
  | some n =>
    match acc with
    | none => .ok (some n)
    | some a => some <$> a.addInPlace n

/-- `None if acc is None else f(acc)`, nnj/sequential.py:72,110,183 -/
def through (acc : Option (Tensor α)) (f : Tensor α → Prog α (Option (Tensor α))) : Prog α (Option (Tensor α)) :=
  match acc with
  | none => pure none
  | some a => f a

/-- loop of `jvp` wrt weight, nnj/sequential.py:70-80; returns `jvp` and `p` -/
def jvpWeight [Add α] (vector : Tensor α) :
    List (Mod α) → Tensor α → Nat → Option (Tensor α) → Prog α (Option (Tensor α) × Nat)
  | [], _, p, acc => pure (acc, p)
  | m :: ms, x, p, acc => do
    let val ← m.call x
    let acc ← through acc fun a => m.jvp x (some val) a .input
    let vec ← (vector.slice 1 p (p + m.nParams) : Res _)
    let fromLayer ← m.jvp x (some val) vec .weight
    let acc ← (accum acc fromLayer : Res _)
    jvpWeight vector ms val (p + m.nParams) acc

/-- nnj/sequential.py:48-82 -/
def jvp [Add α] (ms : List (Mod α)) (x : Tensor α) (_val : Option (Tensor α)) (vector : Tensor α) (wrt : Wrt) :
    Prog α (Option (Tensor α)) := do
  Prog.assert (wrt = .input ∨ wrt = .weight)
  match wrt with
  | .input => do
    let r ← jvpInput ms x vector
    pure (some r)
  | .weight => do
    let (r, p) ← jvpWeight vector ms x 0 none
    Prog.assert (p = nParams ms)
    pure r
  | .other => pure none

/-- loop of `vjp` wrt input, nnj/sequential.py:237-246 -/
def vjpInput (id : Nat) (ms : List (Mod α)) : Nat → Tensor α → Prog α (Tensor α)
  | 0, vector => pure vector
  | k + 1, vector => do
    let m ← child ms k
    let x ← fmap id k
    let v ← fmap id (k + 1)
    let vector ← Prog.need (← m.vjp x (some v) vector .input)
    vjpInput id ms k vector

/-- loop of `vjp` wrt weight, nnj/sequential.py:237-246; the accumulator is `vs` -/
def vjpWeight (id : Nat) (ms : List (Mod α)) : Nat → Tensor α → List (Tensor α) → Prog α (List (Tensor α))
  | 0, _, vs => pure vs
  | k + 1, vector, vs => do
    let m ← child ms k
    let x ← fmap id k
    let v ← fmap id (k + 1)
    let vk ← m.vjp x (some v) vector .weight
    let vs := vk.toList ++ vs
    if k = 0 then pure vs
    else do
      let vector ← Prog.need (← m.vjp x (some v) vector .input)
      vjpWeight id ms k vector vs

/-- `torch.cat(vs, dim=d) if len(vs) > 0 else None`.  nnj/sequential.py:248, 285. -/
def catOrNone (d : Nat) (vs : List (Tensor α)) : Res (Option (Tensor α)) :=
  if vs.length > 0 then some <$> Tensor.cat d vs else .ok none

/-- nnj/sequential.py:218-250 -/
def vjp (id : Nat) (addHooks : Bool) (ms : List (Mod α)) (x : Tensor α) (val : Option (Tensor α))
    (vector : Tensor α) (wrt : Wrt) : Prog α (Option (Tensor α)) := do
  Prog.assert (wrt = .input ∨ wrt = .weight)
  let _ ← getVal id addHooks ms x val
  match wrt with
  | .input => do
    let r ← vjpInput id ms ms.length vector
    pure (some r)
  | .weight => do
    let vs ← vjpWeight id ms ms.length vector []
    (catOrNone 1 vs : Res _)
  | .other => pure none

/-- loop of `mjp` wrt input, nnj/sequential.py:274-283 -/
def mjpInput (id : Nat) (ms : List (Mod α)) : Nat → Tensor α → Prog α (Tensor α)
  | 0, matrix => pure matrix
  | k + 1, matrix => do
    let m ← child ms k
    let x ← fmap id k
    let v ← fmap id (k + 1)
    let matrix ← Prog.need (← m.mjp x (some v) (some matrix) .input)
    mjpInput id ms k matrix

/-- loop of `mjp` wrt weight, nnj/sequential.py:274-283 -/
def mjpWeight (id : Nat) (ms : List (Mod α)) : Nat → Tensor α → List (Tensor α) → Prog α (List (Tensor α))
  | 0, _, acc => pure acc
  | k + 1, matrix, acc => do
    let m ← child ms k
    let x ← fmap id k
    let v ← fmap id (k + 1)
    let mk ← m.mjp x (some v) (some matrix) .weight
    let acc := mk.toList ++ acc
    if k = 0 then pure acc
    else do
      let matrix ← Prog.need (← m.mjp x (some v) (some matrix) .input)
      mjpWeight id ms k matrix acc

/-- `torch.eye(n, n).repeat(b, 1, 1)`, nnj/sequential.py:270-271: `vs = val.shape` -/
def eyeFor [Zero α] [One α] (val : Tensor α) : Res (Tensor α) :=
  match val.shape with
  | [] => .error .index
  | b :: s =>
    let n := size s
    .ok (ofFn [b, n, n] fun idx => if idx.getD 1 0 = idx.getD 2 0 then 1 else 0)

/-- nnj/sequential.py:253-287 -/
def mjp [Zero α] [One α] (id : Nat) (addHooks : Bool) (ms : List (Mod α)) (x : Tensor α)
    (val : Option (Tensor α)) (matrix : Option (Tensor α)) (wrt : Wrt) : Prog α (Option (Tensor α)) := do
  Prog.assert (wrt = .input ∨ wrt = .weight)
  let val ← getVal id addHooks ms x val
  let matrix ← (match matrix with
    | none => eyeFor val
    | some m => .ok m : Res _)
  match wrt with
  | .input => do
    let r ← mjpInput id ms ms.length matrix
    pure (some r)
  | .weight => do
    let acc ← mjpWeight id ms ms.length matrix []
    (catOrNone 2 acc : Res _)
  | .other => pure none

/-- nnj/sequential.py:39-41 -/
def jacobian [Zero α] [One α] (id : Nat) (addHooks : Bool) (ms : List (Mod α)) (x : Tensor α)
    (val : Option (Tensor α)) (wrt : Wrt) : Prog α (Option (Tensor α)) :=
  mjp id addHooks ms x val none wrt

/-- loop of `jmp` wrt input, nnj/sequential.py:101-105 -/
def jmpInput : List (Mod α) → Tensor α → Tensor α → Prog α (Tensor α)
  | [], _, matrix => pure matrix
  | m :: ms, x, matrix => do
    let val ← m.call x
    let matrix ← Prog.need (← m.jmp x (some val) (some matrix) .input)
    jmpInput ms val matrix

/-- loop of `jmp` wrt weight, nnj/sequential.py:107-119 -/
def jmpWeight [Add α] (matrix : Tensor α) :
    List (Mod α) → Tensor α → Nat → Option (Tensor α) → Prog α (Option (Tensor α) × Nat)
  | [], _, p, acc => pure (acc, p)
  | m :: ms, x, p, acc => do
    let val ← m.call x
    let acc ← through acc fun a => m.jmp x (some val) (some a) .input
    let mat ← (matrix.slice 1 p (p + m.nParams) : Res _)
    let fromLayer ← m.jmp x (some val) (some mat) .weight
    let acc ← (accum acc fromLayer : Res _)
    jmpWeight matrix ms val (p + m.nParams) acc

/-- nnj/sequential.py:85-121 -/
def jmp [Zero α] [One α] [Add α] (id : Nat) (addHooks : Bool) (ms : List (Mod α)) (x : Tensor α)
    (val : Option (Tensor α)) (matrix : Option (Tensor α)) (wrt : Wrt) : Prog α (Option (Tensor α)) := do
  Prog.assert (wrt = .input ∨ wrt = .weight)
  match matrix with
  | none => jacobian id addHooks ms x val wrt
  | some matrix =>
    match wrt with
    | .input => do
      let r ← jmpInput ms x matrix
      pure (some r)
    | .weight => do
      let (r, p) ← jmpWeight matrix ms x 0 none
      Prog.assert (p = nParams ms)
      pure r
    | .other => pure none

/-- loop of `jmjTp` wrt input, nnj/sequential.py:148-159; `n` is the number of layers, `k` the index
of the next one -/
def jmjTpInput (id n : Nat) (fromDiag toDiag db : Bool) :
    List (Mod α) → Nat → PyVal α → Prog α (PyVal α)
  | [], _, matrix => pure matrix
  | m :: ms, k, matrix => do
    let x ← fmap id k
    let v ← fmap id (k + 1)
    let r ← m.jmjTp x (some v) matrix .input (if k = 0 then fromDiag else db)
      (if k = n - 1 then toDiag else db) db
    jmjTpInput id n fromDiag toDiag db ms (k + 1) (PyVal.ofOption r)

/-- per-layer blocks of a full or diagonal matrix, nnj/sequential.py:165-177; returns the list and
the final value of `p` -/
def splitBlocks (matrix : Tensor α) (fromDiag : Bool) : List (Mod α) → Nat → Res (List (PyVal α) × Nat)
  | [], p => .ok ([], p)
  | m :: ms, p =>
    if m.nParams = 0 then splitBlocks matrix fromDiag ms p
    else do
      let blk ← matrix.slice 1 p (p + m.nParams)
      let blk ← if fromDiag then .ok blk else blk.slice 2 p (p + m.nParams)
      let (rest, p') ← splitBlocks matrix fromDiag ms (p + m.nParams)
      pure (.tensor blk :: rest, p')

/-- `matrix[k_with_params]`.  nnj/sequential.py:199. -/
def listGet (vs : List (PyVal α)) (k : Nat) : Prog α (PyVal α) := fun s =>
  match vs[k]? with
  | some v => (.ok v, s)
  | none => (.error .index, s)

/-- loop of `jmjTp` wrt weight, nnj/sequential.py:179-211 -/
def jmjTpWeight [Add α] (id n : Nat) (fromDiag toDiag db : Bool) (blocks : List (PyVal α)) :
    List (Mod α) → Nat → Nat → Option (Tensor α) → Prog α (Option (Tensor α))
  | [], _, _, acc => pure acc
  | m :: ms, k, kp, acc => do
    let acc ← through acc fun a => do
      let x ← fmap id k
      let v ← fmap id (k + 1)
      m.jmjTp x (some v) (.tensor a) .input db (if k = n - 1 then toDiag else db) db
    if m.nParams = 0 then jmjTpWeight id n fromDiag toDiag db blocks ms (k + 1) kp acc
    else do
      let x ← fmap id k
      let v ← fmap id (k + 1)
      let blk ← listGet blocks kp
      let fromLayer ← m.jmjTp x (some v) blk .weight fromDiag (if k = n - 1 then toDiag else db) db
      let acc ← (accum acc fromLayer : Res _)
      jmjTpWeight id n fromDiag toDiag db blocks ms (k + 1) (kp + 1) acc

/-- nnj/sequential.py:124-211.  For `wrt="input"` a list passed as `matrix` with no layer to consume
it would be returned unchanged; the model raises TypeError there. -/
def jmjTp [Zero α] [One α] [Add α] (id : Nat) (addHooks : Bool) (ms : List (Mod α)) (x : Tensor α)
    (val : Option (Tensor α)) (matrix : PyVal α) (wrt : Wrt) (fromDiag toDiag db : Bool) :
    Prog α (Option (Tensor α)) := do
  Prog.assert ((!db) || (db && fromDiag && toDiag))
  let _ ← getVal id addHooks ms x val
  match wrt with
  | .input => do
    let (matrix, fromDiag) := match matrix with
      | .none => (PyVal.tensor (onesLike x), true)
      | m => (m, fromDiag)
    let r ← jmjTpInput id ms.length fromDiag toDiag db ms 0 matrix
    (r.toOption : Res _)
  | .weight => do
    let (matrix, fromDiag) ← (match matrix with
      | .none => do
        let b ← x.dim 0
        pure (PyVal.tensor (ones [b, nParams ms]), true)
      | m => pure (m, fromDiag) : Res (PyVal α × Bool))
    let blocks ← match matrix with
      | .list vs => pure vs
      | .tensor t => do
        let (vs, p) ← (splitBlocks t fromDiag ms 0 : Res _)
        Prog.assert (p = nParams ms)
        pure vs
      | .none => Prog.throw .type
    jmjTpWeight id ms.length fromDiag toDiag db blocks ms 0 0 none
  | .other => pure none

/-- loop of `jTmjp` wrt input, nnj/sequential.py:312-338 -/
def jTmjpInput (id n : Nat) (ms : List (Mod α)) (fromDiag toDiag db : Bool) :
    Nat → Option (Tensor α) → Prog α (Option (Tensor α))
  | 0, matrix => pure matrix
  | k + 1, matrix => do
    let m ← child ms k
    let x ← fmap id k
    let v ← fmap id (k + 1)
    let r ← m.jTmjp x (some v) matrix .input (if k = n - 1 then fromDiag else db)
      (if k = 0 then toDiag else db) db
    let r ← (r.toOption : Res _)
    jTmjpInput id n ms fromDiag toDiag db k r

/-- `[m_k] + ms` unless `m_k is None`.  nnj/sequential.py:324-326. -/
def consVal (v : PyVal α) (vs : List (PyVal α)) : List (PyVal α) :=
  match v with
  | .none => vs
  | v => v :: vs

/-- loop of `jTmjp` wrt weight, nnj/sequential.py:312-338 -/
def jTmjpWeight (id n : Nat) (ms : List (Mod α)) (fromDiag toDiag db : Bool) :
    Nat → Option (Tensor α) → List (PyVal α) → Prog α (List (PyVal α))
  | 0, _, acc => pure acc
  | k + 1, matrix, acc => do
    let m ← child ms k
    let x ← fmap id k
    let v ← fmap id (k + 1)
    let mk ← m.jTmjp x (some v) matrix .weight (if k = n - 1 then fromDiag else db) toDiag db
    let acc := consVal mk acc
    if k = 0 then pure acc
    else do
      let r ← m.jTmjp x (some v) matrix .input (if k = n - 1 then fromDiag else db) db db
      let r ← (r.toOption : Res _)
      jTmjpWeight id n ms fromDiag toDiag db k r acc

/-- nnj/sequential.py:290-347 -/
def jTmjp [Zero α] [One α] (id : Nat) (addHooks : Bool) (ms : List (Mod α)) (x : Tensor α)
    (val : Option (Tensor α)) (matrix : Option (Tensor α)) (wrt : Wrt) (fromDiag toDiag db : Bool) :
    Prog α (PyVal α) := do
  Prog.assert ((!db) || (db && fromDiag && toDiag))
  let val ← getVal id addHooks ms x val
  let (matrix, fromDiag) ← (match matrix with
    | none =>
      match val.shape with
      | [] => .error .index
      | b :: s => .ok (ones [b, size s], true)
    | some m => .ok (m, fromDiag) : Res (Tensor α × Bool))
  match wrt with
  | .input => do
    let r ← jTmjpInput id ms.length ms fromDiag toDiag db ms.length (some matrix)
    pure (PyVal.ofOption r)
  | .weight => do
    let acc ← jTmjpWeight id ms.length ms fromDiag toDiag db ms.length (some matrix) []
    if acc.length = 0 then pure .none
    else if toDiag then do
      let ts ← (acc.mapM PyVal.toTensor : Res _)
      let r ← (Tensor.cat 1 ts : Res _)
      pure (.tensor r)
    else pure (.list acc)
  | .other => do
    -- the backward loop still runs (wrt input) before `None` is returned
    let _ ← jTmjpInput id ms.length ms fromDiag toDiag db ms.length (some matrix)
    pure .none

/-- The Sequential object (nnj/sequential.py:10-28). -/
def mod [Zero α] [One α] [Add α] (id : Nat) (addHooks : Bool) (ms : List (Mod α)) : Mod α where
  id := id
  nParams := nParams ms
  params := (ms.map Mod.params).flatten
  forward := forward id addHooks ms
  jacobian := jacobian id addHooks ms
  jvp := jvp ms
  jmp := jmp id addHooks ms
  jmjTp := jmjTp id addHooks ms
  vjp := vjp id addHooks ms
  mjp := mjp id addHooks ms
  jTmjp := jTmjp id addHooks ms

/-- Registration of the hooks, nnj/sequential.py:25-28: one hook per position in the list. -/
def register (id : Nat) : List (Mod α) → (Nat → List Nat) → (Nat → List Nat)
  | [], h => h
  | m :: ms, h => register id ms fun j => if j = m.id then h j ++ [id] else h j

/-- Constructor `Sequential(*ms, add_hooks=addHooks)` with object identity `id`.  nnj/sequential.py:10-28. -/
def init [Zero α] [One α] [Add α] (id : Nat) (ms : List (Mod α)) (addHooks : Bool := true) :
    Prog α (Mod α) := do
  if addHooks then
    Prog.modify fun s => { s with
      fmaps := fun j => if j = id then some [] else s.fmaps j
      hooks := register id ms s.hooks }
  else
    Prog.modify fun s => { s with fmaps := fun j => if j = id then none else s.fmaps j }
  pure (mod id addHooks ms)

end Sequential
end NNJ
