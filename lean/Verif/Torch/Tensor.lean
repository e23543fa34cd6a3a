/-!
# Dynamic tensors: the part of the torch tensor API that nnj uses

A tensor is a shape together with row-major flat data (a contiguous torch tensor).  Only the
first `size shape` entries of `data` are meaningful.  Every primitive that torch checks at run
time returns a value of `Res` (`Except Err`): a failed check is an error value, where torch
raises.

Simplifications (all of `Verif/Torch`): values only, no dtype, device, strides or autograd
graph; in-place updates are functional updates; scalars are an arbitrary type with the
operations used (theorems instantiate it with the real numbers, so rounding is not modelled).
-/

namespace NNJ

/-- Python / torch exceptions that the modelled code can raise.
E.g. nnj/conv2d.py:39, 75 and the assertion nnj/sequential.py:59. -/
inductive Err where
  | shape            -- torch RuntimeError: incompatible sizes
  | index            -- IndexError
  | assertion        -- AssertionError
  | notImplemented   -- NotImplementedError
  | attribute        -- AttributeError
  | type             -- TypeError
  | value            -- ValueError
  deriving DecidableEq, Repr

/-- a value or an exception (nnj/*.py) -/
abbrev Res (β : Type) := Except Err β

/-- Number of elements of a shape (torch `numel`).  E.g. nnj/sequential.py:271. -/
def size : List Nat → Nat
  | [] => 1
  | d :: s => d * size s

/-- Row-major offset of a multi-index.  Indexing, e.g. nnj/maxpool2d.py:102. -/
def ravel : List Nat → List Nat → Nat
  | _ :: s, i :: is => i * size s + ravel s is
  | _, _ => 0

/-- Multi-index of a row-major offset.  Inverse of `ravel`; used for every tensor result in nnj/*.py. -/
def unravel : List Nat → Nat → List Nat
  | [], _ => []
  | _ :: s, k => k / size s :: unravel s (k % size s)

/-- a `torch.Tensor`, as in the signatures of all methods in nnj/*.py -/
structure Tensor (α : Type) where
  shape : List Nat
  data : Nat → α

/-- `∑_{i < n} f i`, accumulated from the left starting at 0.
The sums of einsum, convolutions and `torch.sum`, e.g. nnj/log_likelihoods.py:35. -/
def sumRange {α : Type} [Zero α] [Add α] : Nat → (Nat → α) → α
  | 0, _ => 0
  | n + 1, f => sumRange n f + f n

/-- Product of a list of scalars (no unit factor for non-empty lists).
The products inside `torch.einsum`, e.g. nnj/linear.py:30. -/
def prodList {α : Type} [One α] [Mul α] : List α → α
  | [] => 1
  | [a] => a
  | a :: as => a * prodList as

namespace Tensor

variable {α β : Type}

/-- `t[i0, i1, ...]`.  E.g. nnj/maxpool2d.py:102. -/
def get (t : Tensor α) (idx : List Nat) : α := t.data (ravel t.shape idx)

/-- Tensor with given shape and entries.  Results of tensor operations in nnj/*.py. -/
def ofFn (s : List Nat) (f : List Nat → α) : Tensor α := ⟨s, fun k => f (unravel s k)⟩

/-- torch `Tensor.numel()`.  E.g. nnj/conv2d.py:36. -/
def numel (t : Tensor α) : Nat := size t.shape

/-- `t.shape[d]`; IndexError when out of range.  E.g. nnj/log_likelihoods.py:30. -/
def dim (t : Tensor α) (d : Nat) : Res Nat :=
  match t.shape[d]? with
  | some n => .ok n
  | none => .error .index

/-- `a, b = t.shape`.  E.g. nnj/linear.py:22. -/
def dims2 (t : Tensor α) : Res (Nat × Nat) :=
  match t.shape with
  | [a, b] => .ok (a, b)
  | _ => .error .value

/-- `a, b, c, d = t.shape`.  E.g. nnj/conv2d.py:410. -/
def dims4 (t : Tensor α) : Res (Nat × Nat × Nat × Nat) :=
  match t.shape with
  | [a, b, c, d] => .ok (a, b, c, d)
  | _ => .error .value

/-- `t[0].numel()`: IndexError on an empty batch or a 0-dimensional tensor.
nnj/skipconnection.py:30, nnj/log_likelihoods.py:228. -/
def numel0 (t : Tensor α) : Res Nat :=
  match t.shape with
  | 0 :: _ => .error .index
  | _ :: s => .ok (size s)
  | [] => .error .index

/-- elementwise map.  E.g. nnj/log_likelihoods.py:34. -/
def map (f : α → β) (t : Tensor α) : Tensor β := ⟨t.shape, fun k => f (t.data k)⟩

/-- `t.reshape(*s)` with explicit sizes.  E.g. nnj/conv2d.py:268. -/
def reshape (t : Tensor α) (s : List Nat) : Res (Tensor α) :=
  if size s = t.numel then .ok ⟨s, t.data⟩ else .error .shape

/-- `t.reshape(*pre, -1, *post)`: torch infers the missing size; it raises when the known sizes
multiply to 0 (ambiguous) or do not divide the number of elements.  E.g. nnj/flatten.py:16, nnj/conv2d.py:311. -/
def reshapeInfer (t : Tensor α) (pre post : List Nat) : Res (Tensor α) :=
  let known := size pre * size post
  if known = 0 then .error .shape
  else if t.numel % known = 0 then .ok ⟨pre ++ (t.numel / known) :: post, t.data⟩
  else .error .shape

/-- `t.reshape(*dims)` with integers: at most one of them is `-1` and is inferred, no other is negative.  nnj/reshape.py:17. -/
def reshapeOpen (t : Tensor α) (dims : List Int) : Res (Tensor α) :=
  let pre := (dims.takeWhile fun d => decide (0 ≤ d)).map Int.toNat
  match dims.dropWhile fun d => decide (0 ≤ d) with
  | [] => t.reshape pre
  | d :: post => if d = -1 ∧ ∀ e ∈ post, 0 ≤ e then t.reshapeInfer pre (post.map Int.toNat) else .error .shape

/-- `torch.full(s, c)`; `torch.ones`, `torch.zeros`.  E.g. nnj/conv2d.py:54, 221. -/
def full (s : List Nat) (c : α) : Tensor α := ⟨s, fun _ => c⟩
/-- `torch.ones(s)`, e.g. nnj/conv2d.py:54 -/
def ones [One α] (s : List Nat) : Tensor α := full s 1
/-- `torch.zeros(s)`, e.g. nnj/conv2d.py:221 -/
def zeros [Zero α] (s : List Nat) : Tensor α := full s 0

/-- `torch.ones_like`, `torch.zeros_like`.  E.g. nnj/conv2d.py:383. -/
def onesLike [One α] (t : Tensor α) : Tensor α := ones t.shape
/-- `torch.zeros_like(t)`, e.g. nnj/skipconnection.py:61 -/
def zerosLike [Zero α] (t : Tensor α) : Tensor α := zeros t.shape

/-- `t.unsqueeze(d)`.  E.g. nnj/linear.py:24. -/
def unsqueeze (t : Tensor α) (d : Nat) : Res (Tensor α) :=
  if d ≤ t.shape.length then .ok ⟨t.shape.insertIdx d 1, t.data⟩ else .error .index

/-- `t[i]`, selecting along dimension 0 (drops the dimension).
The argument of one call under vmap, nnj/conv2d.py:216. -/
def select0 (t : Tensor α) (i : Nat) : Res (Tensor α) :=
  match t.shape with
  | [] => .error .index
  | d :: s => if i < d then .ok ⟨s, fun k => t.data (i * size s + k)⟩ else .error .index

/-- Python slice `t[..., start:stop, ...]` at dimension `d` (bounds are clamped like in Python).
E.g. nnj/skipconnection.py:151-153, nnj/sequential.py:73. -/
def slice (t : Tensor α) (d start stop : Nat) : Res (Tensor α) :=
  match t.shape[d]? with
  | none => .error .index
  | some n =>
    let lo := min start n
    let hi := min stop n
    .ok (ofFn (t.shape.set d (hi - lo)) fun idx => t.get (idx.set d (idx.getD d 0 + lo)))

/-- `t.expand(...)` along one dimension of size 1 at position `d` to size `n`.  E.g. nnj/maxpool2d.py:211. -/
def expandAt (t : Tensor α) (d n : Nat) : Res (Tensor α) :=
  match t.shape[d]? with
  | some 1 => .ok (ofFn (t.shape.set d n) fun idx => t.get (idx.set d 0))
  | some m => if m = n then .ok t else .error .shape
  | none => .error .shape

/-- Normalise a possibly negative dimension.  E.g. the -1 of nnj/conv2d.py:389. -/
def normDim (r : Nat) (d : Int) : Nat := if d < 0 then (d + r).toNat else d.toNat

/-- `t.permute(*perm)` for `perm` a permutation of the dimensions.  Used for movedim, e.g. nnj/conv2d.py:389. -/
def permute (t : Tensor α) (perm : List Nat) : Tensor α :=
  ofFn (perm.map fun d => t.shape.getD d 0) fun idx =>
    t.get ((List.range perm.length).map fun d => idx.getD (perm.idxOf d) 0)

/-- Fill the positions of `ps` from `rest`, except the destinations, which get their source.
Part of movedim, e.g. nnj/conv2d.py:389. -/
def fillPerm (s d : List Nat) : List Nat → List Nat → List Nat
  | [], _ => []
  | p :: ps, rest =>
    if p ∈ d then s.getD (d.idxOf p) 0 :: fillPerm s d ps rest
    else match rest with
      | [] => 0 :: fillPerm s d ps []
      | r :: rs => r :: fillPerm s d ps rs

/-- The permutation performed by `movedim(src, dst)` on a tensor with `r` dimensions.  E.g. nnj/conv2d.py:389. -/
def movedimPerm (r : Nat) (src dst : List Int) : List Nat :=
  let s := src.map (normDim r)
  let d := dst.map (normDim r)
  fillPerm s d (List.range r) ((List.range r).filter (fun i => !(s.contains i)))

/-- `t.movedim(src, dst)` (tuples, or singletons for the integer form); IndexError when a
dimension is out of range.  E.g. nnj/conv2d.py:389, 426. -/
def movedim (t : Tensor α) (src dst : List Int) : Res (Tensor α) :=
  if (src ++ dst).all (fun d => decide (-(t.shape.length : Int) ≤ d ∧ d < t.shape.length)) then
    .ok (t.permute (movedimPerm t.shape.length src dst))
  else .error .index

/-- `t.transpose(1, 2)`.  E.g. nnj/skipconnection.py:124. -/
def transpose12 (t : Tensor α) : Res (Tensor α) := t.movedim [1, 2] [2, 1]

/-- `torch.flip(t, dims)`.  E.g. nnj/conv2d.py:597. -/
def flip (t : Tensor α) (ds : List Int) : Res (Tensor α) :=
  let r := t.shape.length
  if ds.all (fun d => decide (-(r : Int) ≤ d ∧ d < r)) then
    let ds' := ds.map (normDim r)
    .ok (ofFn t.shape fun idx =>
      t.get ((List.range r).map fun d =>
        if d ∈ ds' then t.shape.getD d 0 - 1 - idx.getD d 0 else idx.getD d 0))
  else .error .index

/-- `torch.diag_embed(t)` on the last dimension.  E.g. nnj/conv2d.py:55. -/
def diagEmbed [Zero α] (t : Tensor α) : Res (Tensor α) :=
  match t.shape.getLast? with
  | none => .error .index
  | some n => .ok (ofFn (t.shape ++ [n]) fun idx =>
      let r := t.shape.length
      if idx.getD (r - 1) 0 = idx.getD r 0 then t.get (idx.take r) else 0)

/-- `torch.diagonal(t, dim1=1, dim2=2)` of a rank 3 tensor.
nnj/conv2d.py:402, 580, nnj/maxpool2d.py:283, nnj/upsample.py:264. -/
def diagonal12 (t : Tensor α) : Res (Tensor α) :=
  match t.shape with
  | [b, m, n] => .ok (ofFn [b, min m n] fun idx => t.get [idx.getD 0 0, idx.getD 1 0, idx.getD 1 0])
  | _ => .error .index

/-- `torch.cat([a, b], dim=d)`.  E.g. nnj/skipconnection.py:18. -/
def cat2 (a b : Tensor α) (d : Nat) : Res (Tensor α) :=
  match a.shape[d]?, b.shape[d]? with
  | some m, some n =>
    if a.shape.set d 0 = b.shape.set d 0 then
      .ok (ofFn (a.shape.set d (m + n)) fun idx =>
        if idx.getD d 0 < m then a.get idx else b.get (idx.set d (idx.getD d 0 - m)))
    else .error .shape
  | _, _ => .error .index

/-- `torch.cat(ts, dim=d)`: raises on an empty list.  nnj/sequential.py:248, 285, 345. -/
def cat (d : Nat) : List (Tensor α) → Res (Tensor α)
  | [] => .error .shape
  | t :: ts => if d < t.shape.length then ts.foldlM (fun r u => cat2 r u d) t else .error .index

/-- torch broadcasting of two shapes (aligned on the right, given reversed here).
For the sums and products of tensors, e.g. nnj/skipconnection.py:154. -/
def broadcastRev : List Nat → List Nat → Option (List Nat)
  | [], s => some s
  | s, [] => some s
  | a :: s, b :: t =>
    if a = b then (broadcastRev s t).map (a :: ·)
    else if a = 1 then (broadcastRev s t).map (b :: ·)
    else if b = 1 then (broadcastRev s t).map (a :: ·)
    else none

/-- index into a broadcast operand: drop leading dimensions, use 0 in dimensions of size 1.
E.g. nnj/skipconnection.py:154. -/
def bcastIdx (s idx : List Nat) : List Nat :=
  List.zipWith (fun d i => if d = 1 then 0 else i) s (idx.drop (idx.length - s.length))

/-- Elementwise binary operation with torch broadcasting.  E.g. nnj/skipconnection.py:154. -/
def zipWithB (f : α → α → α) (a b : Tensor α) : Res (Tensor α) :=
  if a.shape = b.shape then .ok ⟨a.shape, fun k => f (a.data k) (b.data k)⟩
  else match broadcastRev a.shape.reverse b.shape.reverse with
    | none => .error .shape
    | some rs => .ok (ofFn rs.reverse fun idx => f (a.get (bcastIdx a.shape idx)) (b.get (bcastIdx b.shape idx)))

/-- `a + b`, e.g. nnj/skipconnection.py:154 -/
def add [Add α] (a b : Tensor α) : Res (Tensor α) := zipWithB (· + ·) a b
/-- `a - b`, e.g. nnj/log_likelihoods.py:34 -/
def sub [Sub α] (a b : Tensor α) : Res (Tensor α) := zipWithB (· - ·) a b
/-- `a * b`, e.g. nnj/log_likelihoods.py:106 -/
def mul [Mul α] (a b : Tensor α) : Res (Tensor α) := zipWithB (· * ·) a b

/-- In-place `a += b`: `b` must broadcast to the shape of `a`.  nnj/sequential.py:78, 117, 210. -/
def addInPlace [Add α] (a b : Tensor α) : Res (Tensor α) := do
  let r ← add a b
  if r.shape = a.shape then .ok r else .error .shape

/-- `torch.arange(n)`.  E.g. nnj/maxpool2d.py:100. -/
def arange (n : Nat) : Tensor Nat := ⟨[n], fun k => k⟩

/-- `torch.repeat_interleave(t, k)` of a 1-dimensional tensor.  E.g. nnj/maxpool2d.py:100. -/
def repeatInterleave (t : Tensor α) (k : Nat) : Res (Tensor α) :=
  match t.shape with
  | [n] => .ok ⟨[n * k], fun i => t.data (i / k)⟩
  | _ => .error .shape

/-- Flat position addressed by the `k`-th entries of a list of index tensors.  E.g. nnj/maxpool2d.py:176. -/
def indexPos (s : List Nat) (is : List (Tensor Nat)) (k : Nat) : Nat :=
  ravel s (is.map fun i => i.data k)

/-- Are the `k`-th entries of the index tensors in range for shape `s`?.  E.g. nnj/maxpool2d.py:176. -/
def indexOk (s : List Nat) (is : List (Tensor Nat)) (k : Nat) : Bool :=
  (List.zipWith (fun d (i : Tensor Nat) => decide (i.data k < d)) s is).all id

/-- `t[i1, ..., ir] = v` with one index tensor per dimension of `t`, all of the shape of `v`.
Assignment, not accumulation: when two entries address the same cell, the later one (row-major)
wins - torch leaves the winner unspecified, this is what the CPU kernel does.  nnj/maxpool2d.py:176, 215, 266, 299. -/
def indexPut (t : Tensor α) (is : List (Tensor Nat)) (v : Tensor α) : Res (Tensor α) :=
  if is.length = t.shape.length ∧ is.all (fun i => i.shape = v.shape) then
    if (List.range v.numel).all (indexOk t.shape is) then
      .ok ⟨t.shape, fun pos =>
        match (List.range v.numel).reverse.find? (fun k => indexPos t.shape is k = pos) with
        | some k => v.data k
        | none => t.data pos⟩
    else .error .index
  else .error .shape

/-- `t[i1, i2]` (gather) with two 1-dimensional index tensors addressing the two leading
dimensions; the remaining dimensions are kept (`t[i1, i2, :, ...]`).  nnj/maxpool2d.py:102. -/
def indexGet2 (t : Tensor α) (i1 i2 : Tensor Nat) : Res (Tensor α) :=
  match t.shape with
  | d1 :: d2 :: s =>
    if i1.shape = i2.shape then
      if (List.range i1.numel).all (fun k => decide (i1.data k < d1) && decide (i2.data k < d2)) then
        .ok ⟨i1.shape ++ s, fun p =>
          let k := p / size s
          t.data ((i1.data k * d2 + i2.data k) * size s + p % size s)⟩
      else .error .index
    else .error .shape
  | _ => .error .index

/-- `torch.stack(ts, dim=0)` for results of a batched computation.  The result of vmap, nnj/conv2d.py:216. -/
def stack0 : List (Tensor α) → Res (Tensor α)
  | [] => .error .shape
  | t :: ts =>
    if ts.all (fun u => u.shape = t.shape) then
      .ok ⟨(t :: ts).length :: t.shape, fun p =>
        (((t :: ts)[p / size t.shape]?).getD t).data (p % size t.shape)⟩
    else .error .shape

/-- `functorch.vmap(f)(a, b)` over dimension 0 of both arguments.  nnj/conv2d.py:216, 326, 503, 624. -/
def vmap2 {γ : Type} (f : Tensor α → Tensor β → Res (Tensor γ)) (a : Tensor α) (b : Tensor β) :
    Res (Tensor γ) := do
  let n ← a.dim 0
  let m ← b.dim 0
  if n = m then
    let rs ← (List.range n).mapM fun i => do
      let ai ← a.select0 i
      let bi ← b.select0 i
      f ai bi
    stack0 rs
  else .error .shape

/-- `t[i, ...] = v`: overwrite the `i`-th slice along dimension 0.  nnj/conv2d.py:240, 355, 568, 653. -/
def setRow (t : Tensor α) (i : Nat) (v : Tensor α) : Res (Tensor α) :=
  match t.shape with
  | [] => .error .index
  | d :: s =>
    if i < d then
      if v.shape = s then
        .ok ⟨t.shape, fun p => if p / size s = i then v.data (p % size s) else t.data p⟩
      else .error .shape
    else .error .index

/-- `torch.sum(t, dim=0)`.  nnj/log_likelihoods.py:62, 91, 135, 167, 213, 259. -/
def sum0 [Zero α] [Add α] (t : Tensor α) : Res (Tensor α) :=
  match t.shape with
  | [] => .error .index
  | d :: s => .ok ⟨s, fun k => sumRange d fun i => t.data (i * size s + k)⟩

/-- `torch.sum(t, dim=1)` of a rank 2 tensor.  nnj/log_likelihoods.py:35, 107, 182. -/
def sum1 [Zero α] [Add α] (t : Tensor α) : Res (Tensor α) :=
  match t.shape with
  | [b, n] => .ok ⟨[b], fun k => sumRange n fun i => t.data (k * n + i)⟩
  | _ => .error .index

/-- `torch.sum(t)`.  nnj/log_likelihoods.py:40, 112, 187. -/
def sumAll [Zero α] [Add α] (t : Tensor α) : Tensor α := ⟨[], fun _ => sumRange t.numel t.data⟩

end Tensor
end NNJ
