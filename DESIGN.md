# Formal model of nnj in Lean 4

The English properties are in `properties.jsonl`, the theorems that prove them are listed in
`MANIFEST.json`, the axioms of every theorem in `AXIOMS.md`, the tests of the theorems against wrong
programs in `seeded/LOG.jsonl`.

## 1. Approach

`nnj` is a PyTorch library; its semantic core is (a) tensor index algebra, (b) recursive
bookkeeping over nested modules (`Sequential`, `SkipConnection`), (c) mutable caches
(`feature_maps`, `MaxPool2d.idx`, forward hooks, parameters).  All three are modelled:

* **Tensors** (`Verif/Torch/*`): dynamic tensors = shape (`List Nat`) + row-major flat data.
  The torch primitives the code uses (`reshape`, `einsum` with its string, `cat`, slices,
  `movedim`, `flip`, `diag_embed`, index_put / gather, `conv2d`, `conv_transpose2d`,
  `max_pool2d`, nearest upsampling, `vmap`, `cholesky_inverse`, ...) are total functions into
  `Except Err`; ill-shaped calls return an error value where torch raises.
* **Store and programs** (`Verif/Model/Basic.lean`): a `Store` holds parameters, feature maps,
  pooling indices and hooks.  Methods are `Prog` = `Store -> Except Err a x Store`: a raised
  exception keeps the state changes made before it, as in Python.
* **Modules** (`Verif/Model/*.lean`): one Lean definition per Python method, branch by branch, each
  with a comment giving the file and lines it models; a module is a record of its methods (dynamic
  dispatch), so `Sequential` calls its children through the same interface as in Python and custom
  layers are covered.
* **Scalars**: the model is generic in the scalar type; theorems instantiate it with the real
  numbers (devices are not modelled; dtypes only in the separate model `Model/Dtype`, without
  numbers, for C79).  C75 relates runs in any two scalar types:
  exceptions and shapes are the same in all of them.  C78, C82 and C83 bound the effect of rounding on `forward`, `vjp` and the diagonal `jTmjp`.

### Layers of the development

| directory | content |
|---|---|
| `Verif/Torch` | the torch primitives |
| `Verif/Model` | nnj, one file per Python file |
| `Verif/Spec` | what the statements of the properties mention besides the model: networks as expressions (`Net`), their mathematical semantics (`Sem`: function and Jacobians of one sample, written with Mathlib matrices and sums, no model code), views of tensors as batches of vectors / matrices, calls and histories, likelihood formulas, example networks |
| `Verif/Proofs` | helper lemmas |
| `Verif/Props` | the property theorems, each followed by an example that meets its hypotheses |

A reader who wants to check a statement needs `Verif/Props`, the definitions of `Verif/Spec` it uses
and the model; nothing in `Verif/Proofs` occurs in statements except `Prog.Raises` and `Returns`
(the call ends with an exception / with this value).

### How the proofs work

The central device is a *contract* for a module (`Proofs/Contract.lean`): what forward, jacobian and
each product return in terms of its `Sem`, and which part of the store they may touch.  Every layer
class satisfies it (`Proofs/Leaf*.lean`); `Sequential` and `SkipConnection` preserve it (`Proofs/Seq*.lean`,
`SkipGood.lean`, induction over the list of children); hence every `Net` satisfies it (`NetGood.lean`,
mutual induction).  The part about the products with respect to the input (`GoodI`) does not need the rest:
containers preserve it on its own, which gives networks with layers outside `Net` (`GNet`, C61).  That the Jacobians of `Sem` are the Fréchet derivatives of its function is proved
separately (`Proofs/Deriv*.lean`: chain rule by induction).

## 2. Properties

| id | theorems in | how |
|----|----|----|
| C01, C02 | `Props/Jacobian` | `HasFDerivAt` of the function computed by the model's own forward pass, resp. of forward as a function of the `set_weight` vector |
| C03-C06, C14 | `Props/Products` | contracts; the product with the tensor returned by `jacobian` on the same state |
| C07-C10, C15 | `Props/Metrics` | contracts; matrix algebra, `PosSemidef` |
| C11 | `Props/DiagBackprop` | contract for the diag_backprop flag (propagation of diagonals with squared Jacobians), exactness for masked Jacobians, concrete inexact case |
| C12 | `Props/NoneMatrix` | contracts with the identity, error branches of the classes where `None` raises |
| C13 | `Props/NoneWeight` | per-layer case analysis + contracts |
| C16 | `Props/Samples` | contracts are per sample |
| C17-C19 | `Props/History` | frame theorem for arbitrary calls, induction over call histories, concrete witnesses |
| C20, C21 | `Props/Weights` | loops over parameter holders |
| C22-C26 | `Props/Likelihood`, `Props/Aggregate` | likelihood methods over an arbitrary network; derivatives; negative semidefiniteness |
| C27 | `Props/Convert` | the conversion loop, typed layer lists |
| C28 | `Props/Blocks` | forward substitution, induction over nested lists |
| C29, C30 | `Props/AbstractLayers` | the abstract classes with an arbitrary `jacobian` |
| C31, C39 | `Props/Leaves` | real analysis on the layer formulas |
| C32-C34 | `Props/Spatial` | index arithmetic of scatter and convolution |
| C35, C41 | `Props/Guards` | error branches of the model |
| C36 | `Props/Skip` | contracts + witnesses |
| C37 | `Props/Grouping` | normal form without nested Sequentials |
| C38 | `Props/Shared` | feature maps of a list with repeated objects, concrete wrong result |
| C40 | `Props/AddHooks` | erasure of hooks, induction over the layers |
| C43 | `Props/Fractional` | floor arithmetic of sizes and positions, uniqueness of the derivative |
| C44 | `Props/ConvGen` | grouped dilated convolutions as sums, lengths of the weight convolution |
| C45 | `Props/ApproxGgn` | contract for diag_backprop inside the likelihood methods |
| C46 | `Props/FeatureMaps` | the loop invariant of the forward loops, induction on the list of calls |
| C47 | `Props/Benchmark` | composition of C27, C12 and C02, Hessian of the squared loss |
| C48 | `Props/ChainRule` | induction on the chain of layers |
| C49 | `Props/Notebook` | induction on the steps; the contract of the network; the UNet as a network expression |
| C50 | `Props/Target` | the forward contract, then stepping through the methods |
| C51 | `Props/OtherWrt` | postconditions per layer, then cases on the network; equations between calls of a Sequential |
| C52 | `Props/Slice` | insensitivity to hooks of outside Sequentials (twin states), growth of feature maps, induction on networks and histories |
| C53 | `Props/Append` | edited Sequential as its own object (layers, copied list, copied count); loop invariants with an unhooked layer; frame of the caches |
| C54 | `Props/Copy` | renamed network; two simulations between original and copy (forward: parameters; backward: parameters and caches); frame of the original |
| C55 | `Props/Storage` | storages and views; refinement of the value model; invariant that the parameters are consecutive views into the vector |
| C56 | `Props/Autograd` | reverse-mode sweep over the network (Spec/Autograd); induction over networks |
| C57 | `Props/Reshape` | `torch.Tensor.reshape` with integers, characterised by the accepted shapes |
| C58 | `Props/UpsampleModes` | methods with the inherited forward pass as argument (Model/UpsampleModes); tent functions for bilinear interpolation |
| C59 | `Props/Custom` | `Act.custom` in Spec/Sem (Model/Activations.custom); the leaf contract for any elementwise layer |
| C60 | `Props/Broadcast` | the loop of vjp with a relation between the vector and the rows it stands for (`Loose`), layer by layer (`Mdl.VjpRows`) |
| C61 | `Props/GNet` | the contract of a module restricted to the input side (`GoodI`), which Sequential and SkipConnection preserve on its own; `GConv.layer_exact` for convolutions |
| C62 | `Props/Inplace` | a ReLU read at relu(x) has the same value and Jacobian as at x; the network with overwritten feature maps is again a network satisfying the contract (`Net.ip_good`), with semantics equal on non-overwritten inputs (`Net.ip_cor`); `Net.hrun`: what memory holds after the forward pass |
| C63 | `Props/ConvModes` | the padded image is a larger image without padding (`GConv.mode_specG`); the methods read only the shape of `val` (`Conv2d.*_congr`); the derivative is that of mode zeros plus the kernel entries beyond the border (`GConv.modeJ_sub`) |
| C64 | `Props/Tests` | the generated nested lists are blocks of a block-diagonal matrix the mask keeps (`gen_net`), the comparison walks the blocks (`close_net`), every step keeps the network wired (`Sit`) |
| C65 | `Props/JacTests` | the rows filled so far are autograd's (`Filled`, by induction over samples and outputs), the gradient buffers are zero after each row (`fillOutputs_run`) |
| C66 | `Props/NdLinear` | case analysis of the methods; sizes of the labels of each einsum (`einsum_shape`, `einsum_dims`) |
| C67 | `Props/Loose` | contract without caches and wiring, loop induction over the layers; chain rule along a line of parameters |
| C68 | `Props/Empty` | contract for empty batches, partial correctness; loop induction |
| C69 | `Props/FwdMode` | outcome calculus (returns iff condition, raises otherwise); induction over networks, continuation-style loop lemmas |
| C70 | `Props/WrongShape` | broadcasting and divisibility of reshapes; independence of the weights by unfolding |
| C71 | `Props/Push` | partial correctness over all nestings (a call that returned went through every layer), with C09 and C10 for the values |
| C72 | `Props/Hessian` | induction over the network: locally affine in the input and along directions within one layer; Hessian of a function of an affine map |
| C73 | `Props/Fisher` | expectations over targets under product measures; the gradient is linear in the residuals, whose covariance is minus the Hessian that `ggn` uses |
| C74 | `Props/Training` | the returned gradient is the derivative (C22); a network with one parameter layer is affine in its weights, by induction over the network; log-likelihoods lie below their tangents (nonpositive Hessian, mean value theorem); solvability of the normal equations by rank |
| C75 | `Props/Shapes` | a relation between runs in two number systems that only compares shapes (parametricity): one lemma per tensor operation, composed along the code of every layer by a tactic that walks both copies, then induction over the containers and over the network |
| C76 | `Props/NaN` | NaN propagation through the code in an arbitrary number type with laws for NaN and infinities; inversion of the Sequential loop (the last columns of the weight gradient are the vector given); the laws checked in reals with overflow |
| C77 | `Props/CustomNet` | the layers with a repaired `jTmjp` satisfy the contract of the layers; a Sequential or SkipConnection cannot tell modules apart that differ only in diagonal `jTmjp` (`SameBut`) |
| C78 | `Props/Rounding` | induction over the network in any number type with relative rounding errors: each error of a Linear layer is moved into the weight it was made with; the other layers commute with the conversion to real numbers |
| C79 | `Props/Dtype` | dtype model; closure of "has dtype d, no digit lost" under all operations, then induction over networks for each method; for the failures, inversion: a call that returned has met no layer of that kind |
| C80 | `Props/Blind` | congruence: methods of related networks are equal, by induction over the loops of Sequential and over the nesting; counting by induction over the depth |
| C81 | `Props/Work` | cost model; layer by layer, then mutual induction over networks |
| C82 | `Props/RoundVjp`, `Props/RoundVjpW` | lockstep of the rounded and the exact run; perturbations collected layer by layer |
| C83 | `Props/RoundDiag` | lockstep of the rounded and the exact run; factors near 1 pass through sums of nonnegative numbers |
| C84 | `Props/RoundRows`, `Props/RoundCols` | lockstep of mjp and vjp, of jmp and jvp; entries of the einsums |
| C85 | `Props/RoundAt`, `Props/RoundAtVjp` | lockstep of two runs; entries of the einsums; relation between the kept feature maps |
| C42 | `Props/Build` | execution of the constructors from the inside out |

Several properties describe defects of the code; they are stated as what the code does:
C12 (`None` raises or has the wrong rank for some layers), C19 (`val` with a stale cache), C24
(LogBernoulli's gradient is only right for normalised targets), C26 ("return all" is rejected by the
constructor), C27 (`convert_to_nnj` drops settings), C28 (`cholesky_inverse` of a matrix that is not a
Cholesky factor), C29 (the diagonal branches of `AbstractJacobian.jTmjp`), C31 (L2Norm), C32
(overlapping windows), C34, C36, C38, C39, C40, C41, C43 (`int(scale_factor)`), C44 (dilation), C45
(`approx` with a full metric), C46 (forward-mode products append to `feature_maps`), C47 (the benchmark is k/2 times the
Gauss-Newton diagonal of the loss it is compared with), C49 (the notebook samples weights around 0 instead of the trained ones,
the README's `jTmjp` call raises), C51 (an unknown `wrt` is only rejected by some methods of Sequential),
C52 (`val` with a cache overwritten by another Sequential that shares layers), C53 (after `append` the backward passes ignore the
new layer, after `model[k] = layer` they raise), C54 (after `copy.deepcopy` the copy's hooks write into the original, so its own
backward passes raise).

## 3. Trusted base

* The Lean 4.33.0 kernel and the Mathlib definitions used in statements (`HasFDerivAt`, `Matrix`,
  `Matrix.PosSemidef`, `Real.exp`, ...).
* Axioms: every property theorem uses a subset of `propext`, `Classical.choice`, `Quot.sound`
  (`AXIOMS.md`, generated with `#print axioms` by `tools/gen_axioms.py`, which fails on any other
  axiom).  No own axioms, no `sorry`, no `native_decide`, no `bv_decide`.
* The reading of the Python code and of the torch primitives recorded in the comments of
  `Verif/Torch` and `Verif/Model`.  The model was written from the source text and re-read against it
  function by function; nnj itself was never executed.

### Modelled

All of `nnj/*.py` (and slicing, `append`, `model[k] = layer`, which Sequential inherits from torch, and `copy.deepcopy`): the six elementwise activations, Linear, Conv2d (both the vmap and the loop
implementation), MaxPool2d, Upsample, Flatten, Reshape, L2Norm, Sequential, SkipConnection, the two
abstract classes and user-defined elementwise layers (`Act.custom`, anywhere in a network), `get_weight` / `set_weight`, the three likelihoods, `convert_to_nnj`,
`invert_block_diagonal`; for each method every branch on `wrt`, `val is None`, `matrix is None`,
`from_diag`, `to_diag`, `diag_backprop`; raised exceptions with their class; feature maps, hooks and
pooling indices as state.  Of `benchmarks/`: the class `GGN` of `ggn/nnj.py` (not the timer, the scripts and the
BackPACK classes).  Of `UNet.ipynb` and `README.md`: the network, the training step, the Laplace deviations, the sampled
predictions and the README's calls (not the data, plots and statistics).  Of `tests/`: the test functions of
`jacobian_products.py` (C64) and `jacobians.py` (C65), with arbitrary layers, inputs and draws in place of the listed ones.

### Not modelled, or simplified

* Time and memory: only in `Model/Work` (C81), where `vjp` and the diagonal `jTmjp` are their number of scalar operations; the cost of
  torch's operations is trusted and listed at its head.  It shares no code with the rest of the model.
* Numbers are exact: no rounding, overflow, NaN, dtypes, devices.  Dtypes: `Model/Dtype` writes every method again with
  tensors reduced to their dtype (single, double) and the lowest precision their numbers went through; torch's rules for
  mixed dtypes, listed at its head, are trusted; shapes, half precision and integer tensors are left out; C79 is about it.  (The model is generic in the type of numbers: C75 is about all types, C76
  about those with NaN and infinities, C78, C82 and C83 about those with relative rounding errors and sums from left to right;
  everything else is about the reals.)  Division by 0 in the reals is 0,
  where torch gives inf / NaN; the statements about L2Norm exclude `|x| + eps = 0`.
  `logsumexp` is `log (sum exp)`, softplus above its threshold is the identity as in torch.
* No strides, and no storage sharing except for parameters: tensors are values.  In-place updates in nnj (`+=` in
  sequential.py, index_put in maxpool2d.py) act on tensors created in the same call, so this is not
  observable there.  Parameters: `Model/Storage` has storages and contiguous views, for `set_weight`, `get_weight`,
  `convert_to_nnj` and in-place writes by the user (C55), and refines the model without.  Feature maps share storage with the
  tensors they were taken from: `ReLU(inplace=True)`, which writes to them, is modelled for the forward pass in
  `Model/Inplace` (C62); in-place writes to them by the user are outside the model.
* No autograd graph (`@torch.no_grad()`, `detach`).  What torch's autograd returns for a forward pass is specified by the backward formulas of
  the torch functions and of TruncExp's autograd function (`Spec/Autograd`), trusted as a reading of torch; C56 compares with it.
* Random initial parameter values: the parameters are whatever the state holds.
* Exceptions: when a call meets two error conditions at once, the model may report the other class
  of exception than Python does (e.g. it reads `shape[2]` before an assertion on `shape[0]`).
* `einsum` ellipses are expanded to the rank of the operand, up to 8 dimensions.
* `index_put` with duplicate indices: last write wins (torch leaves it unspecified).  This matters
  only for overlapping pooling windows (C32).
* `max_pool2d` ties: the first position of the window, as in the CPU kernel.
* `torch.cat` skips 1-dimensional empty tensors in torch; the model does not.  Assigning a row
  (`out[i] = v`) requires equal shapes, torch would broadcast.
* Unbatched (3-dimensional) inputs of Conv2d / MaxPool2d / Upsample, `Sequential(OrderedDict(...))`,
  `vmap` over an empty batch.
* `Conv2d` with `padding_mode != "zeros"` (`Model/ConvModes`, C63): as a single layer, not inside networks.
* `Upsample`: modes other than nearest and bilinear (`align_corners=False`) only as an arbitrary forward pass (C58).
* `convert_to_nnj`: `nn.Upsample` among the given layers only on 4-dimensional inputs; objects whose class is called
  `AbstractJacobian` or `AbstractDiagonalJacobian` are not among the modelled input layers.
* Lists given as `matrix` to the `jmjTp` of a single layer raise TypeError in the model.
* `Module.__call__` runs forward and the forward hooks registered by nnj; user hooks, `train()` /
  `eval()` and everything else of `nn.Module` are left out.

### Conditions in the statements about whole networks

`Net` covers every nesting of `Sequential` and `SkipConnection` around Linear, the activations, Flatten,
Reshape, L2Norm (samples with at most 8 dimensions), Conv2d (stride 1 — others are rejected by the constructor —, dilation 1,
groups 1, padding < kernel), Upsample (integer factor) and MaxPool2d (windows that do not overlap), with
positive sizes.  The excluded configurations are treated by the per-layer properties C31-C36, C39, C43, C44.
`Net.Ok` says that the objects are distinct and that the state is what the constructors produce (C42
proves that constructing a network yields it, C17 that every history of calls keeps it).  C38 and C40
show what happens without it.
