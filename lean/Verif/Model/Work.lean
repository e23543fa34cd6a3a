import Mathlib.Tactic.Ring

/-!
# The work of vjp and of jTmjp with diag_backprop (for C81)

README.md:20 promises "an approximate but faster version of these methods that has the same order of complexity of a standard
backpropagation".  Here a call is only what it costs, as a number of scalar operations, and the networks are only their sizes.
What is counted (trusted as a reading of torch):

* an elementwise operation: one for each entry;
* `torch.einsum`: the operands are contracted from left to right, a label is summed out as soon as neither the result nor an
  operand to come has it; each contraction costs one for each combination of the labels present;
* `conv2d`, `conv_transpose2d`: one for each product of an entry with a weight, and one for each entry of the result;
* `zeros`, `ones`, `cat`, `flip`, `diag_embed`, indexing: one for each entry of the result;
* `reshape`, `movedim`, `transpose`, slices, assertions: nothing.

All calls have `val` and the vector or matrix given; `b` is the batch size.  Sizes fit together and `groups = 1`.
-/

namespace NNJ
namespace Work

/-- product of the sizes of some labels; see `ein` (nnj/linear.py:182) -/
def vol (sz : Char → Nat) : List Char → Nat
  | [] => 1
  | c :: cs => sz c * vol sz cs

/-- labels without repetitions; see `ein` (nnj/linear.py:182) -/
def labels : List Char → List Char
  | [] => []
  | c :: cs => if c ∈ cs then labels cs else c :: labels cs

/-- the remaining contractions of `ein` (nnj/linear.py:245) -/
def einGo (sz : Char → Nat) (out : List Char) : List Char → List (List Char) → Nat
  | _, [] => 0
  | acc, o :: rest =>
    let all := labels (acc ++ o)
    vol sz all + einGo sz out (all.filter fun c => decide (c ∈ out) || rest.any fun r => decide (c ∈ r)) rest

/-- Work of `torch.einsum` with these operands and result, e.g. nnj/linear.py:182, 245.  One operand: one for each entry. -/
def ein (sz : Char → Nat) (out : List Char) : List (List Char) → Nat
  | [] => 0
  | [o] => vol sz (labels o)
  | o :: ops => einGo sz out o ops

/-- The elementwise activations (nnj/tanh.py, relu.py, sigmoid.py, sinusoidal.py, softplus.py, truncexp.py). -/
inductive Act | tanh | relu | sigmoid | sinusoidal | softplus | truncexp

/-- Elementwise operations of `jacobian(x, val, diag=True)`, per entry: nnj/tanh.py:26 (ones, square, difference), relu.py:22
(comparison, conversion), sigmoid.py:26, sinusoidal.py:30, softplus.py:26, truncexp.py:47. -/
def Act.ops : Act → Nat
  | .tanh => 3 | .relu => 2 | .sigmoid => 2 | .sinusoidal => 1 | .softplus => 2 | .truncexp => 2

/-- A layer and its sizes.  `act a n`: activation on `n` entries per sample; `view n`: Flatten or Reshape; `conv c1 h1 w1 c2 h2 w2
kh kw bias vmap`: images `c1 × h1 × w1` to `c2 × h2 × w2`; `upsample c h w f`: factor `f`.
nnj/linear.py:10, conv2d.py:16, flatten.py:10, reshape.py:10, l2norm.py:12, maxpool2d.py:11, upsample.py:11. -/
inductive Layer
  | linear (i o : Nat) (bias : Bool)
  | conv (c1 h1 w1 c2 h2 w2 kh kw : Nat) (bias vmap : Bool)
  | act (a : Act) (n : Nat)
  | view (n : Nat)
  | l2norm (n : Nat)
  | maxpool (c h1 w1 h2 w2 : Nat)
  | upsample (c h w f : Nat)

/-- `_n_params`.  nnj/linear.py:12, conv2d.py:36; 0 for the others, e.g. nnj/tanh.py:12. -/
def Layer.params : Layer → Nat
  | .linear i o bias => i * o + if bias then o else 0
  | .conv c1 _ _ c2 _ _ kh kw bias _ => c2 * c1 * kh * kw + if bias then c2 else 0
  | _ => 0

/-- sizes of the labels in Linear: samples `b`, inputs `x`, outputs `y`; nnj/linear.py:182, 186, 245, 292 write them differently
in every call -/
def szL (b i o : Nat) : Char → Nat
  | 'b' => b
  | 'x' => i
  | 'k' => i
  | _ => o

/-- sizes of the labels of a square Jacobian, nnj/l2norm.py:39-42, abstract_jacobian.py:167, 232, abstract_diagonal_jacobian.py:121, 177 -/
def szD (b n : Nat) : Char → Nat
  | 'b' => b
  | _ => n

/-- `L2Norm.jacobian` wrt the input, nnj/l2norm.py:36-43: norm, its inverse, normalised `x`, outer product, identity, difference,
division -/
def l2jac (b n : Nat) : Nat :=
  b * n + (b + b) + ein (szD b n) ['b', 'i'] [['b'], ['b', 'i']] + ein (szD b n) ['b', 'i', 'j'] [['b', 'i'], ['b', 'j']] +
    (n + n * n) + b * n * n + (b + b) + ein (szD b n) ['b', 'i', 'j'] [['b'], ['b', 'i', 'j']]

/-- `conv_transpose2d` of `b` images `c2 × h2 × w2` to `c1 × h1 × w1`.  nnj/conv2d.py:176-185, 415-427. -/
def convT (b c1 h1 w1 c2 h2 w2 kh kw : Nat) : Nat := b * (c2 * h2 * w2) * (c1 * kh * kw) + b * (c1 * h1 * w1)

/-- The convolution of one sample with its input, in the products wrt weight: `c2` images `h2 × w2`, kernels `c1 × h1 × w1`.
nnj/conv2d.py:205-213, 604-615. -/
def convW (c1 h1 w1 c2 kh kw : Nat) : Nat := c2 * c1 * kh * kw * (h1 * w1) + c2 * c1 * kh * kw

/-- `vjp(x, val, vector, wrt="input")`.  nnj/linear.py:182, conv2d.py:172-186, abstract_diagonal_jacobian.py:118-121,
flatten.py:126, reshape.py:127, abstract_jacobian.py:164-167 (L2Norm), maxpool2d.py:160-179, upsample.py:128-148. -/
def Layer.vjpI (b : Nat) : Layer → Nat
  | .linear i o _ => ein (szL b i o) ['b', 'x'] [['b', 'y'], ['y', 'x']]
  | .conv c1 h1 w1 c2 h2 w2 kh kw _ _ => convT b c1 h1 w1 c2 h2 w2 kh kw
  | .act a n => a.ops * (b * n) + ein (szD b n) ['b', 'i'] [['b', 'i'], ['b', 'i']]
  | .view _ => 0
  | .l2norm n => l2jac b n + ein (szD b n) ['b', 'j'] [['b', 'i'], ['b', 'i', 'j']]
  | .maxpool c h1 w1 h2 w2 => b * c * (h2 * w2) + b * c * (h1 * w1) + b * c * (h2 * w2)
  | .upsample c h w f => f * f + (b * c * (h * w) * (f * f) + b * c * (h * w))

/-- `vjp(x, val, vector, wrt="weight")`.  nnj/linear.py:184-188, conv2d.py:187-242; the others return None, e.g.
nnj/maxpool2d.py:180-182. -/
def Layer.vjpW (b : Nat) : Layer → Nat
  | .linear i o bias => ein (szL b i o) ['b', 'y', 'x'] [['b', 'y'], ['b', 'x']] + if bias then b * (i * o + o) else 0
  | .conv c1 h1 w1 c2 h2 w2 kh kw bias vmap =>
    (if bias then b * (c2 * h2 * w2) else 0) + b * (c2 * h2 * w2) + b * (c1 * h1 * w1) + b * convW c1 h1 w1 c2 kh kw +
      (if vmap then 0 else b * (c2 * c1 * kh * kw) + b * (c2 * c1 * kh * kw)) +
      (if bias then b * (c2 * c1 * kh * kw + c2) else 0)
  | _ => 0

/-- `jTmjp(x, val, diagonal, wrt="input", from_diag=True, to_diag=True, diag_backprop=True)`.  nnj/linear.py:243-245,
conv2d.py:407-429, abstract_diagonal_jacobian.py:161, 174-177, flatten.py:180, reshape.py:181, abstract_jacobian.py:215, 230-232
(L2Norm), maxpool2d.py:288-301, upsample.py:269-283. -/
def Layer.jTI (b : Nat) : Layer → Nat
  | .linear i o _ => ein (szL b i o) ['b', 'x'] [['y', 'x'], ['b', 'y'], ['y', 'x']]
  | .conv c1 h1 w1 c2 h2 w2 kh kw _ _ => c2 * c1 * kh * kw + convT b c1 h1 w1 c2 h2 w2 kh kw
  | .act a n => a.ops * (b * n) + b * n + ein (szD b n) ['b', 'i'] [['b', 'i'], ['b', 'i']]
  | .view _ => 0
  | .l2norm n => l2jac b n + ein (szD b n) ['b', 'i'] [['b', 'i', 'j'], ['b', 'j'], ['b', 'j', 'i']]
  | .maxpool c h1 w1 h2 w2 => b * c * (h2 * w2) + b * c * (h1 * w1) + b * c * (h2 * w2)
  | .upsample c h w f => f * f + (b * c * (h * w) * (f * f) + b * c * (h * w))

/-- `jTmjp(x, val, diagonal, wrt="weight", from_diag=True, to_diag=True, diag_backprop=True)`.  nnj/linear.py:287-294,
conv2d.py:583-655; None for the others, e.g. nnj/maxpool2d.py:302-304. -/
def Layer.jTW (b : Nat) : Layer → Nat
  | .linear i o bias => b * i + ein (szL b i o) ['b', 'y', 'x'] [['b', 'x'], ['b', 'y']] + if bias then b * (i * o + o) else 0
  | .conv c1 h1 w1 c2 h2 w2 kh kw bias vmap =>
    (if bias then b * (c2 * h2 * w2) else 0) + b * (c2 * h2 * w2) + (b * (c1 * h1 * w1) + b * (c1 * h1 * w1)) +
      b * (convW c1 h1 w1 c2 kh kw + c2 * c1 * kh * kw) +
      (if vmap then 0 else b * (c2 * c1 * kh * kw) + b * (c2 * c1 * kh * kw)) +
      (if bias then b * (c2 * c1 * kh * kw + c2) else 0)
  | _ => 0

/-- `jvp(x, val, vector, wrt="input")`.  nnj/linear.py:51, abstract_diagonal_jacobian.py:42-45, flatten.py:54, reshape.py:55,
abstract_jacobian.py:67-70 (L2Norm).  Conv2d, MaxPool2d and Upsample raise (nnj/conv2d.py:75, maxpool2d.py:72, upsample.py:53):
they count nothing here, see `Layer.Fwd`. -/
def Layer.jvI (b : Nat) : Layer → Nat
  | .linear i o _ => ein (szL b i o) ['b', 'y'] [['y', 'x'], ['b', 'x']]
  | .act a n => a.ops * (b * n) + ein (szD b n) ['b', 'j'] [['b', 'j'], ['b', 'j']]
  | .l2norm n => l2jac b n + ein (szD b n) ['b', 'i'] [['b', 'i', 'j'], ['b', 'j']]
  | _ => 0

/-- `jvp(x, val, vector, wrt="weight")`.  nnj/linear.py:52-61; None for the others, e.g. nnj/flatten.py:55-56. -/
def Layer.jvW (b : Nat) : Layer → Nat
  | .linear i o bias => ein (szL b i o) ['b', 'y'] [['b', 'y', 'x'], ['b', 'x']] + if bias then b * o else 0
  | _ => 0

/-- `jmjTp(x, val, diagonal, wrt="input", from_diag=True, to_diag=True, diag_backprop=True)`.  nnj/linear.py:121-123,
abstract_diagonal_jacobian.py:85, 98-101, flatten.py:104-106, reshape.py:105-107, abstract_jacobian.py:121-135 (L2Norm). -/
def Layer.jmI (b : Nat) : Layer → Nat
  | .linear i o _ => ein (szL b i o) ['b', 'y'] [['y', 'x'], ['b', 'x'], ['y', 'x']]
  | .act a n => a.ops * (b * n) + b * n + ein (szD b n) ['b', 'i'] [['b', 'i'], ['b', 'i']]
  | .l2norm n => l2jac b n + ein (szD b n) ['b', 'i'] [['b', 'i', 'j'], ['b', 'j'], ['b', 'i', 'j']]
  | _ => 0

/-- `jmjTp(x, val, diagonal, wrt="weight", from_diag=True, to_diag=True, diag_backprop=True)`.  nnj/linear.py:152-164. -/
def Layer.jmW (b : Nat) : Layer → Nat
  | .linear i o bias => b * i + ein (szL b i o) ['b', 'y'] [['b', 'x'], ['b', 'y', 'x']] + if bias then b * o else 0
  | _ => 0

/-- Entries of the output of one sample (nnj/linear.py:10, conv2d.py:16, upsample.py:11). -/
def Layer.out : Layer → Nat
  | .linear _ o _ => o
  | .conv _ _ _ c2 h2 w2 _ _ _ _ => c2 * h2 * w2
  | .act _ n => n
  | .view n => n
  | .l2norm n => n
  | .maxpool c _ _ h2 w2 => c * h2 * w2
  | .upsample c h w f => c * (f * h) * (f * w)

/-- `Linear.jTmjp` wrt the input in its four modes, nnj/linear.py:233-245 -/
def linearJTI (b i o : Nat) : Bool → Bool → Nat
  | false, false => ein (szL b i o) ['b', 'x', 'k'] [['y', 'x'], ['b', 'y', 'j'], ['j', 'k']]
  | true, false => ein (szL b i o) ['b', 'x', 'k'] [['y', 'x'], ['b', 'y'], ['y', 'k']]
  | false, true => ein (szL b i o) ['b', 'x'] [['y', 'x'], ['b', 'y', 'j'], ['j', 'x']]
  | true, true => ein (szL b i o) ['b', 'x'] [['y', 'x'], ['b', 'y'], ['y', 'x']]

/-- `jTmjp` wrt the input with `diag_backprop=False`; a lower bound: only Linear counts.  nnj/linear.py:233-245. -/
def Layer.jTIexact (b : Nat) (fromDiag toDiag : Bool) : Layer → Nat
  | .linear i o _ => linearJTI b i o fromDiag toDiag
  | _ => 0

mutual
/-- A network: a layer, a Sequential, or a SkipConnection whose input has `n` entries per sample (nnj/sequential.py:10-28,
nnj/skipconnection.py:10-15). -/
inductive Net
  | layer (l : Layer)
  | seq (c : Chain)
  | skip (n : Nat) (c : Chain)
/-- The modules of a Sequential, first to last (nnj/sequential.py:12). -/
inductive Chain
  | nil
  | cons (m : Net) (c : Chain)
end

mutual
/-- `_n_params`.  nnj/sequential.py:14-18, skipconnection.py:15. -/
def Net.params : Net → Nat
  | .layer l => l.params
  | .seq c => c.params
  | .skip _ c => c.params
/-- the sum of nnj/sequential.py:17-18 -/
def Chain.params : Chain → Nat
  | .nil => 0
  | .cons m c => m.params + c.params
end

mutual
/-- `vjp(.., wrt="input")`.  nnj/sequential.py:237-250; skipconnection.py:147-154 (one sum). -/
def Net.vjpI (b : Nat) : Net → Nat
  | .layer l => l.vjpI b
  | .seq c => c.vjpI b
  | .skip n c => c.vjpI b + b * n
/-- the loop of nnj/sequential.py:237-246 -/
def Chain.vjpI (b : Nat) : Chain → Nat
  | .nil => 0
  | .cons m c => m.vjpI b + c.vjpI b
end

mutual
/-- `vjp(.., wrt="weight")`.  nnj/sequential.py:237-248 (the gradients are concatenated at the end); skipconnection.py:155-156. -/
def Net.vjpW (b : Nat) : Net → Nat
  | .layer l => l.vjpW b
  | .seq c => c.vjpW b true + b * c.params
  | .skip _ c => c.vjpW b true + b * c.params
/-- the loop of nnj/sequential.py:237-246; the vector is not propagated through the first module (243-244) -/
def Chain.vjpW (b : Nat) : Chain → Bool → Nat
  | .nil, _ => 0
  | .cons m c, first => m.vjpW b + (if first then 0 else m.vjpI b) + c.vjpW b false
end

mutual
/-- `jTmjp(.., wrt="input", from_diag=True, to_diag=True, diag_backprop=True)`.  nnj/sequential.py:312-347;
skipconnection.py:195-208 (one sum). -/
def Net.jTI (b : Nat) : Net → Nat
  | .layer l => l.jTI b
  | .seq c => c.jTI b
  | .skip n c => c.jTI b + b * n
/-- the loop of nnj/sequential.py:312-338 -/
def Chain.jTI (b : Nat) : Chain → Nat
  | .nil => 0
  | .cons m c => m.jTI b + c.jTI b
end

mutual
/-- `jTmjp(.., wrt="weight", from_diag=True, to_diag=True, diag_backprop=True)`.  nnj/sequential.py:312-345 (the diagonals are
concatenated at the end); skipconnection.py:225-226. -/
def Net.jTW (b : Nat) : Net → Nat
  | .layer l => l.jTW b
  | .seq c => c.jTW b true + b * c.params
  | .skip _ c => c.jTW b true + b * c.params
/-- the loop of nnj/sequential.py:312-338; 327-328 leave out the propagation through the first module -/
def Chain.jTW (b : Nat) : Chain → Bool → Nat
  | .nil, _ => 0
  | .cons m c, first => m.jTW b + (if first then 0 else m.jTI b) + c.jTW b false
end

mutual
/-- Entries of the output of one sample.  nnj/sequential.py:36, skipconnection.py:18. -/
def Net.out (n : Nat) : Net → Nat
  | .layer l => l.out
  | .seq c => c.out n
  | .skip m c => m + c.out m
/-- the same after the modules, for an input with `n` entries (nnj/sequential.py:33-35) -/
def Chain.out (n : Nat) : Chain → Nat
  | .nil => n
  | .cons m c => c.out (m.out n)
end

mutual
/-- `jvp(.., wrt="input")` of a network whose input has `n` entries, without the evaluations of the layers that go with it (see
C80).  nnj/sequential.py:61-66; skipconnection.py:56-59 (concatenation). -/
def Net.jvI (b n : Nat) : Net → Nat
  | .layer l => l.jvI b
  | .seq c => c.jvI b n
  | .skip m c => c.jvI b m + b * (m + c.out m)
/-- the loop of nnj/sequential.py:62-66 -/
def Chain.jvI (b n : Nat) : Chain → Nat
  | .nil => 0
  | .cons m c => m.jvI b n + c.jvI b (m.out n)
end

mutual
/-- `jvp(.., wrt="weight")`, without the evaluations.  nnj/sequential.py:67-82; skipconnection.py:60-62 (zeros, concatenation). -/
def Net.jvW (b n : Nat) : Net → Nat
  | .layer l => l.jvW b
  | .seq c => c.jvW b n false
  | .skip m c => c.jvW b m false + (b * m + b * (m + c.out m))
/-- the loop of nnj/sequential.py:70-80; `acc`: whether the sum so far is not None -/
def Chain.jvW (b n : Nat) : Chain → Bool → Nat
  | .nil, _ => 0
  | .cons m c, acc =>
    (if acc then m.jvI b n else 0) + m.jvW b n + (if acc && decide (m.params ≠ 0) then b * m.out n else 0) +
      c.jvW b (m.out n) (acc || decide (m.params ≠ 0))
end

mutual
/-- `jmjTp(.., wrt="input", from_diag=True, to_diag=True, diag_backprop=True)`.  nnj/sequential.py:147-160;
skipconnection.py:106-118 (concatenation). -/
def Net.jmI (b n : Nat) : Net → Nat
  | .layer l => l.jmI b
  | .seq c => c.jmI b n
  | .skip m c => c.jmI b m + b * (m + c.out m)
/-- the loop of nnj/sequential.py:148-159 -/
def Chain.jmI (b n : Nat) : Chain → Nat
  | .nil => 0
  | .cons m c => m.jmI b n + c.jmI b (m.out n)
end

mutual
/-- `jmjTp(.., wrt="weight", from_diag=True, to_diag=True, diag_backprop=True)`.  nnj/sequential.py:161-211;
skipconnection.py:129-131 (zeros, concatenation). -/
def Net.jmW (b n : Nat) : Net → Nat
  | .layer l => l.jmW b
  | .seq c => c.jmW b n false
  | .skip m c => c.jmW b m false + (b * m + b * (m + c.out m))
/-- the loop of nnj/sequential.py:181-211; layers without parameters are skipped (194-195) -/
def Chain.jmW (b n : Nat) : Chain → Bool → Nat
  | .nil, _ => 0
  | .cons m c, acc =>
    (if acc then m.jmI b n else 0) + (if m.params = 0 then 0 else m.jmW b n + if acc then b * m.out n else 0) +
      c.jmW b (m.out n) (acc || decide (m.params ≠ 0))
end

/-- Sequential of layers, `jTmjp(.., wrt="weight", from_diag=True, to_diag=True, diag_backprop=False)`; a lower bound: of the
layers only Linear wrt the input counts.  The last layer takes the diagonal, the others the full matrix; all but the first pass
a full matrix on.  nnj/sequential.py:312-338. -/
def exactW (b : Nat) : List Layer → Bool → Nat
  | [], _ => 0
  | l :: ls, first => (if first then 0 else l.jTIexact b ls.isEmpty false) + exactW b ls false

/-- `Sequential(*ls)`, as a network (nnj/sequential.py:10-12) -/
def ofList : List Layer → Chain
  | [] => .nil
  | l :: ls => .cons (.layer l) (ofList ls)

end Work
end NNJ
