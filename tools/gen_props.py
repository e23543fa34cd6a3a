import json
P=[]
def add(id,title,statement,quantifier,why,anchors):
    P.append(dict(id=id,title=title,statement=statement,quantifier=quantifier,why_tests_cant=why,anchors=anchors))

NETS="every network obtained by arbitrarily nesting Sequential and SkipConnection around the supported layers, every parameter value, every input batch"
add("C01","jacobian wrt input is the derivative of forward",
"For every supported network, `net.jacobian(x, None, wrt='input')` returns a tensor of shape [batch, out, in] whose b-th matrix is the Frechet derivative, at the flattened b-th sample, of the map sample -> flattened output computed by `net.forward`, wherever the layers met on the way are differentiable (ReLU pre-activation not 0, Softplus below its threshold, |TruncExp input| <= 15, max-pool window with a unique maximum).",
NETS+" at which every layer is smooth",
"Tests compare against autograd on a handful of fixed architectures, with atol 1e-4, at random points; the claim is about every architecture, depth, width, weight and input.",
["nnj/sequential.py:Sequential.jacobian","nnj/skipconnection.py:SkipConnection.jacobian","nnj/linear.py:Linear.jacobian","nnj/conv2d.py:Conv2d.jacobian","nnj/tanh.py:Tanh.jacobian","tests/jacobians.py:test_jacobian_wrt_input"])
add("C02","jacobian wrt weight is the derivative in get_weight coordinates",
"For every supported parametric network, `net.jacobian(x, None, wrt='weight')` has shape [batch, out, n_params] and its b-th matrix is the Frechet derivative, at w = net.get_weight(), of w -> flattened b-th output of forward after net.set_weight(w): its columns are in exactly the order of get_weight.",
NETS+"; all weight vectors",
"Column-order and block-offset mistakes only show on architectures the tests do not contain; the property ranges over all nestings and all weights.",
["nnj/sequential.py:Sequential.mjp","nnj/linear.py:Linear.jacobian","nnj/conv2d.py:Conv2d.mjp","nnj/abstract_jacobian.py:AbstractJacobian.get_weight","nnj/abstract_jacobian.py:AbstractJacobian.set_weight"])
add("C03","vjp multiplies by the jacobian from the left",
"For every supported network and either choice of wrt, `net.vjp(x, None, v, wrt)` has shape [batch, in or n_params] and equals v[b] @ jacobian(x, None, wrt)[b] for every sample b.",
NETS+"; all vectors v; wrt in {input, weight}",
"Fast path (einsum, convolution, scatter) versus dense jacobian must agree for every shape and value, not for sampled ones.",
["nnj/sequential.py:Sequential.vjp","nnj/skipconnection.py:SkipConnection.vjp","nnj/linear.py:Linear.vjp","nnj/conv2d.py:Conv2d.vjp","nnj/maxpool2d.py:MaxPool2d.vjp","nnj/upsample.py:Upsample.vjp"])
add("C04","mjp multiplies by the jacobian from the left, row by row",
"For every supported network, `net.mjp(x, None, M, wrt)` has shape [batch, rows, in or n_params] and equals M[b] @ jacobian(x, None, wrt)[b]; in particular each row of the result is vjp of that row.",
NETS+"; any number of rows; all M",
"Same as C03, over all matrices and row counts.",
["nnj/sequential.py:Sequential.mjp","nnj/skipconnection.py:SkipConnection.mjp","nnj/linear.py:Linear.mjp","nnj/conv2d.py:Conv2d.mjp","nnj/maxpool2d.py:MaxPool2d.mjp","nnj/upsample.py:Upsample.mjp"])
add("C05","jvp multiplies by the jacobian from the right",
"For every network of layers with forward-mode support (no Conv2d, Upsample, MaxPool2d; SkipConnections parametric), `net.jvp(x, None, v, wrt)` equals jacobian(x, None, wrt)[b] @ v[b]; wrt='weight' reads v in get_weight order.",
"every such network, input, vector and wrt",
"Offset bookkeeping of per-layer slices and accumulation of contributions must be right for every nesting.",
["nnj/sequential.py:Sequential.jvp","nnj/skipconnection.py:SkipConnection.jvp","nnj/linear.py:Linear.jvp","nnj/abstract_diagonal_jacobian.py:AbstractDiagonalJacobian.jvp"])
add("C06","jmp multiplies by the jacobian from the right, column by column",
"For the networks of C05, `net.jmp(x, None, M, wrt)` equals jacobian(x, None, wrt)[b] @ M[b] for any number of columns.",
"every such network, input, matrix and wrt",
"As C05.",
["nnj/sequential.py:Sequential.jmp","nnj/skipconnection.py:SkipConnection.jmp","nnj/linear.py:Linear.jmp","nnj/abstract_diagonal_jacobian.py:AbstractDiagonalJacobian.jmp"])
add("C07","jTmjp wrt input is the exact pull-back of the metric for all four diagonal flags",
"With diag_backprop=False, `net.jTmjp(x, None, M, wrt='input', from_diag, to_diag)` is J^T M J, where M is diag(M) when from_diag, and only the diagonal is returned when to_diag. Hence to_diag=True returns the diagonal of the to_diag=False result and from_diag=True on m equals from_diag=False on diag_embed(m).",
NETS+"; all (also non-symmetric) M; all four flag combinations",
"Four separately coded branches per layer and flag routing through every depth; tests use batch size 1 and an all-ones diagonal.",
["nnj/sequential.py:Sequential.jTmjp","nnj/skipconnection.py:SkipConnection.jTmjp","nnj/linear.py:Linear.jTmjp","nnj/conv2d.py:Conv2d.jTmjp","nnj/maxpool2d.py:MaxPool2d.jTmjp","nnj/upsample.py:Upsample.jTmjp"])
add("C08","jTmjp wrt weight returns the diagonal, or one exact block per parametric layer",
"With diag_backprop=False, wrt='weight': to_diag=True returns the diagonal of Jw^T M Jw in get_weight order; to_diag=False returns (for wrappers) a nested list whose leaves, in get_weight order, are exactly the per-layer diagonal blocks of Jw^T M Jw.",
NETS+"; all M; both from_diag values",
"The block structure is recursive over arbitrary nesting.",
["nnj/sequential.py:Sequential.jTmjp","nnj/linear.py:Linear.jTmjp","nnj/conv2d.py:Conv2d.jTmjp"])
add("C09","jmjTp wrt input is the exact push-forward of the metric for all four diagonal flags",
"For the networks of C05 with diag_backprop=False, `net.jmjTp(x, None, M, wrt='input', from_diag, to_diag)` is J M J^T with the same diagonal conventions as C07.",
"every such network, input, M and flags",
"Branch and flag routing for every depth.",
["nnj/sequential.py:Sequential.jmjTp","nnj/skipconnection.py:SkipConnection.jmjTp","nnj/linear.py:Linear.jmjTp"])
add("C10","jmjTp wrt weight uses exactly the per-layer diagonal blocks of the metric",
"With diag_backprop=False, wrt='weight': for from_diag=True the result is Jw diag(m) Jw^T exactly; for a full tensor M it is Jw blockdiag(M) Jw^T where blockdiag keeps only the per-leaf-layer diagonal blocks of M (off-block entries are ignored); for a (nested) list it is the same with the listed blocks.",
"every parametric network without Conv2d and without Upsample or MaxPool2d after the first parameter, every input, matrix and to_diag",
"Depends on the recursive structure; tests only exercise list arguments on fixed architectures.",
["nnj/sequential.py:Sequential.jmjTp","nnj/skipconnection.py:SkipConnection.jmjTp","nnj/linear.py:Linear.jmjTp"])
add("C11","what diag_backprop computes",
"With from_diag=to_diag=diag_backprop=True the result is obtained by propagating the diagonal through the entrywise squares of the per-layer Jacobians; it is entrywise non-negative whenever the input diagonal is; it is exact for a single layer, for the weights of the last layer of a Sequential, and whenever every layer but one has a diagonal Jacobian; it is not exact in general.",
"every supported network, input and diagonal",
"An approximation's exact semantics and its domain of exactness cannot be read off samples.",
["nnj/sequential.py:Sequential.jTmjp","nnj/sequential.py:Sequential.jmjTp"])
add("C12","matrix=None means the identity metric",
"`jTmjp(x, None, None, ...)` equals jTmjp with the identity metric (JᵀJ wrt input, its diagonal or per-layer blocks wrt weight) for every network except L2Norm itself, Conv2d itself with to_diag=False, and SkipConnections on samples with more than one dimension; mjp/jmp with None return the jacobian except on Flatten/Reshape/L2Norm themselves; jmjTp with None is J Jᵀ on Linear, elementwise layers, Flatten, Reshape, Sequentials on vectors (input) and on all networks (weight). In the excepted cases the call raises, or (spatial SkipConnection jTmjp, spatial Sequential jmjTp starting with Flatten) returns a tensor of the wrong rank.",
"every such layer/network, input and flags",
"Documented convention ('None means identity') over all shapes; tests never pass None matrices.",
["nnj/sequential.py:Sequential.jTmjp","nnj/linear.py:Linear.jTmjp","nnj/conv2d.py:Conv2d.jTmjp","README.md"])
add("C13","None exactly for non-parametric modules, and n_params columns otherwise",
"A wrt='weight' product that returns, returns None exactly when the module owns no parameter; wrt='input' products never return None. With parameters the weight dimension of every result equals the length of get_weight(). Without parameters vjp/mjp/jTmjp return None, and so do jacobian/jvp/jmp/jmjTp unless there is a SkipConnection without parameters (C36).",
"every supported network, every input and argument",
"Sequential silently drops None contributions, so a misclassified layer shifts all later columns; holds for all nestings.",
["nnj/sequential.py:Sequential","nnj/linear.py:Linear","nnj/conv2d.py:Conv2d"])
add("C14","forward and backward passes are adjoint",
"<v, jvp(x,None,u,wrt)> = <vjp(x,None,v,wrt), u> for every sample, network, u and v.",
"every network of C05, input, u, v, wrt",
"Two independent code paths (forward recursion with offsets, backward recursion with concatenation) related for all inputs.",
["nnj/sequential.py:Sequential.jvp","nnj/sequential.py:Sequential.vjp"])
add("C15","metrics stay symmetric and positive semidefinite",
"If M[b] is symmetric (positive semidefinite) then so is jTmjp(...)[b] and jmjTp(...)[b]; with to_diag=True all returned entries are then >= 0.",
"every supported network, input and PSD metric",
"Semidefiniteness is a statement over all directions.",
["nnj/sequential.py:Sequential.jTmjp","nnj/sequential.py:Sequential.jmjTp","nnj/log_likelihoods.py:LogGaussian.ggn"])
add("C16","samples in a batch do not interact",
"Row b of forward, jacobian, vjp, mjp, jvp, jmp, jTmjp and jmjTp on a batch equals what the same call returns on any other batch holding the same sample (and same vector/matrix row) at another position b' - in particular on the batch of size one.",
"every supported network, batch sizes, positions and companions",
"The repository's product tests only use batch_size = 1; batched reshapes/vmap/scatters mix batch and channel axes.",
["nnj/conv2d.py:Conv2d","nnj/maxpool2d.py:MaxPool2d","nnj/upsample.py:Upsample","tests/jacobian_products.py"])
add("C17","with val=None results do not depend on the call history",
"After any finite sequence of earlier API calls on the model - forward passes on other inputs, any product with any (even ill-shaped, failing) arguments, set_weight - a call with val=None returns the product at the given x and the current weights.",
"every supported network and every finite history of calls, including failing ones",
"feature_maps and MaxPool2d.idx are mutable caches; the property quantifies over all histories.",
["nnj/sequential.py:Sequential.forward","nnj/maxpool2d.py:MaxPool2d.forward","nnj/sequential.py:Sequential.vjp"])
add("C18","after val = model(x), passing val is the same as passing None",
"Immediately after `val = model(x)`, and after any further calls at the same x, `vjp/mjp/jTmjp/jmjTp(x, val, ...)` return the same as with None.",
"every supported network; every finite sequence of product calls at that x in between",
"Cache validity under all interleavings of reads.",
["nnj/sequential.py:Sequential.vjp","nnj/sequential.py:Sequential.__init__","README.md"])
add("C19","passing val uses the cached forward pass, not x",
"When val is supplied, Sequential.vjp/mjp/jTmjp ignore x and differentiate at the input of the last forward pass; consequently there are histories (forward at x1, forward or jvp at x2, then vjp(x1, val1)) whose result is not the product at x1. [Negative property: the naive guarantee 'vjp(x, model(x)) is the product at x in every history' is false.]",
"every state and x; existence of a bad history",
"Requires reasoning about all cache states; tests always pass None.",
["nnj/sequential.py:Sequential.vjp","nnj/sequential.py:Sequential.jvp","nnj/maxpool2d.py:MaxPool2d.idx"])
add("C20","get_weight/set_weight round trip",
"set_weight(w) with len(w) = n_params succeeds and then get_weight() = w; get_weight followed by set_weight changes nothing; a longer vector is silently truncated; a shorter one raises; get_weight raises on non-parametric modules.",
"every supported network and vector",
"Over all nestings and lengths.",
["nnj/abstract_jacobian.py:AbstractJacobian.get_weight","nnj/abstract_jacobian.py:AbstractJacobian.set_weight"])
add("C21","set_weight changes only the parameters of its own module",
"set_weight on a submodule leaves every other module's weights, hooks and caches untouched, and the next forward uses the new weights (also seen through any enclosing network).",
"every network, submodule, vector",
"Framing over all nestings.",
["nnj/abstract_jacobian.py:AbstractJacobian.set_weight"])
add("C22","LogGaussian.gradient is the gradient of LogGaussian.forward",
"For every supported model, targets and aggregation in {sum}, the vector returned by gradient(x, model, target, wrt) is the gradient of forward(x, model, target) in the input sample / weight vector; 'average' is the mean of the per-sample gradients.",
"every supported network, input, target, wrt",
"Derivative over all models and inputs.",
["nnj/log_likelihoods.py:LogGaussian"])
add("C23","LogBinaryBernoulli.gradient is the gradient of LogBinaryBernoulli.forward",
"As C22 for the Bernoulli likelihood with logits, for every real-valued target; the ggn weight is the second derivative p^2 - p of the log-likelihood in the logit.",
"every supported network, input, target, wrt",
"As C22.",
["nnj/log_likelihoods.py:LogBinaryBernoulli"])
add("C24","LogBernoulli.gradient is the gradient of LogBernoulli.forward exactly for normalised targets",
"For targets that sum to one over the classes, gradient(...) is the gradient of forward(...) and the ggn metric is the Hessian in the logits; for targets with any other class sum it is not.",
"every supported network with class-vector outputs, input, target",
"Universal statement plus its exact boundary.",
["nnj/log_likelihoods.py:LogBernoulli"])
add("C25","the generalised Gauss-Newton matrices are J^T H J and negative semidefinite",
"ggn(...) equals the aggregation of J^T H J with H the Hessian of the log-likelihood at the output; its diagonal entries are <= 0.",
"every supported network, input, target; diag metric, exact backprop",
"Semidefiniteness and the identity quantify over all inputs.",
["nnj/log_likelihoods.py:LogGaussian.ggn","nnj/log_likelihoods.py:LogBinaryBernoulli.ggn","nnj/log_likelihoods.py:LogBernoulli.ggn"])
add("C26","aggregate_batch: only sum and average produce values",
"A likelihood built with the documented default aggregate_batch='return all' cannot be constructed (assertion), and with None every method returns None; so no constructible likelihood returns per-sample values. sum is the sum over the batch and average is sum / batch.",
"all constructor arguments, models, inputs",
"Universal negative over constructor arguments.",
["nnj/log_likelihoods.py:LogLikelihood.__init__"])
add("C27","convert_to_nnj computes the given function with everything it does not copy set to the default",
"convert_to_nnj raises exactly when a layer has a class unknown to nnj, a Linear/Conv2d has no bias (AttributeError), or a layer is a likelihood (AssertionError, their constructors do not accept their own defaults); the first such layer decides. Otherwise the converted network computes, on every input and after any earlier forward passes, the function of the given network in which stride/padding/dilation/groups of Conv2d, stride/padding/dilation/ceil_mode of pooling, beta/threshold of Softplus, eps of L2Norm, dims of Reshape size/scale_factor/mode of Upsample and the layers of a nested Sequential or SkipConnection are replaced by the defaults, and torch.nn.Flatten with any arguments by nnj.Flatten() (which agrees with torch.nn.Flatten() unless a tensor is empty: on an empty batch it raises). Flatten(start_dim, end_dim) merges the dimensions from start_dim to end_dim, counted from either end, and raises for a dimension that does not exist; converted, unless all but one dimension were merged, it returns a tensor with another number of dimensions. An Upsample is accepted, but the converted network then raises on every input. So it is the same function when these already have their default values, and in general not otherwise (padding changes the output size, a nested Sequential becomes the identity). For well-shaped default-configured layers the result is a properly wired network, and its jacobian is the derivative of the given torch network.",
"every list of layers, every input, every earlier history of forward passes",
"Over all layer lists and inputs.",
["nnj/utils.py:convert_to_nnj"])
add("C28","invert_block_diagonal applies (L L^T)^-1 blockwise and preserves the nesting",
"For a nested list of batches of square matrices without zero diagonal entries, the result has the same nested-list structure and each matrix is replaced by the inverse of L L^T with L its lower triangle; so it is the inverse of the matrix exactly when L L^T equals it (in particular the argument must hold Cholesky factors, not the blocks themselves: [[2]] gives 1/4). With a singular, non-square or None entry anywhere, the call raises.",
"all nested lists of batches of matrices",
"Structural recursion over arbitrary nesting, all matrix sizes.",
["nnj/utils.py:invert_block_diagonal"])
add("C29","default products of a custom AbstractJacobian layer",
"For a layer that only implements jacobian, jvp/jmp/vjp/mjp and all four jmjTp modes and the full->full jTmjp are the exact products for every jacobian; the three jTmjp modes with a diagonal flag raise when out != in (neither being 1), and when out = in compute with J in place of J^T: they are exact when J is symmetric and wrong for some non-symmetric J. diag_backprop=True sets both diagonal flags, whatever they were.",
"every jacobian tensor of every shape, every vector/matrix, every flag",
"The only built-in subclass, L2Norm, has a symmetric Jacobian, so tests cannot see the difference.",
["nnj/abstract_jacobian.py:AbstractJacobian"])
add("C30","default products of a custom AbstractDiagonalJacobian layer",
"For a layer whose jacobian(diag=True) returns d and jacobian(diag=False) returns diag(d), every product (all flags) equals the dense product with diag(d).",
"every d, vector, matrix, flags",
"All shapes and flags.",
["nnj/abstract_diagonal_jacobian.py:AbstractDiagonalJacobian"])
add("C31","L2Norm.jacobian and its distance to the derivative",
"L2Norm's products are consistent with its jacobian for every input; that jacobian is the derivative of its forward when eps = 0 and x != 0, and for eps > 0 differs from the derivative by exactly eps * x_i x_j / (|x| (|x|+eps)^3) in entry (i,j), so for eps > 0 and x != 0 it is never the derivative.",
"every dimension, input, eps",
"The discrepancy (about 1e-6 relative) is below the tests' atol.",
["nnj/l2norm.py:L2Norm"])
add("C32","MaxPool2d backward products are exact when windows do not overlap",
"For stride >= kernel (dilation 1), vjp/mjp/jTmjp equal the products with the selection jacobian for every input; with overlapping windows there are inputs where vjp differs from v @ jacobian.",
"all sizes, channel counts, batch sizes, kernels, strides, inputs",
"Scatter by assignment is only right for injective indices, a property of all inputs and sizes.",
["nnj/maxpool2d.py:MaxPool2d"])
add("C33","Conv2d: constructor guard, and vmap versus loop",
"Constructing Conv2d with stride != (1,1) raises ValueError; use_vmap_for_backprop=True and False return the same value for every method and input.",
"all configurations, inputs and arguments",
"Two code paths, all shapes.",
["nnj/conv2d.py:Conv2d"])
add("C34","Conv2d weight-space products need padding <= kernel - 1 and groups = 1",
"With padding <= kernel-1, dilation 1, groups 1 all Conv2d products are exact for every kernel/image size, including non-square; with padding > kernel-1 or groups > 1 weight-space products raise.",
"all kernel sizes, paddings, image sizes, channels",
"The reversed-padding trick is an index identity over all sizes.",
["nnj/conv2d.py:compute_reversed_padding","nnj/conv2d.py:Conv2d.vjp","nnj/conv2d.py:Conv2d.mjp","nnj/conv2d.py:Conv2d.jTmjp"])
add("C35","unsupported passes raise, never return a wrong tensor",
"Conv2d, Upsample and MaxPool2d raise NotImplementedError on jvp wrt input and jmjTp wrt input (Conv2d also wrt weight), for all arguments; a Sequential containing one raises as well on jvp wrt input.",
"all arguments and states",
"Universal over arguments.",
["nnj/conv2d.py:Conv2d.jvp","nnj/upsample.py:Upsample.jvp","nnj/maxpool2d.py:MaxPool2d.jvp"])
add("C36","SkipConnection edge cases",
"SkipConnection.jacobian(x, val) with the right val never returns the Jacobian, although jacobian(x, None) does: whatever it returns has n + (n + k) rows instead of n + k, and it raises wrt input when the inner network ends in a Linear layer with at least 2 outputs. A SkipConnection around parameter-free layers raises on jacobian/jvp/jmp/jmjTp/mjp(None) wrt weight instead of returning None.",
"all inner networks and inputs",
"Universal failure claims.",
["nnj/skipconnection.py:SkipConnection.jacobian","nnj/skipconnection.py:SkipConnection.jvp"])
add("C37","grouping layers into nested Sequentials changes nothing",
"Sequential(A, Sequential(B, C)), Sequential(Sequential(A, B), C) and Sequential(A, B, C) (and any two networks with the same layers in the same order, however grouped into nested Sequentials) have the same forward map, jacobians, vjp, mjp, jvp, jmp, metrics and get_weight vector; a full weight-space metric has the same blocks in the same order, only the nesting of the list differs.",
"all layer lists and groupings, inputs, vectors, matrices",
"Over all groupings.",
["nnj/sequential.py:Sequential"])
add("C38","a layer object used twice corrupts the hooks",
"If the same layer object is put twice in a Sequential, each of its outputs is appended to feature_maps once per occurrence, the list is longer than len + 1, and backward passes read the wrong feature maps: there is such a network and input where vjp is not the product with the derivative; get_weight is then shorter than _n_params. [Negative property.]",
"all lists of stateless layers for the feature maps; existence for the wrong product",
"A test that misses the sharing pattern sees nothing.",
["nnj/sequential.py:Sequential.__init__"])
add("C39","saturating activations: where jacobian deviates from the derivative and by how much",
"TruncExp's jacobian is the derivative iff |x| <= 15 and is clamped to [e^-15, e^15] otherwise; Softplus's jacobian is the derivative of its forward below the threshold, and above it the two differ by 1/(1+e^(beta x)) < e^-threshold; ReLU uses 0 at 0.",
"all reals",
"Exact deviation formulas over all reals.",
["nnj/truncexp.py:TruncExp","nnj/softplus.py:Softplus","nnj/relu.py:ReLU"])
add("C40","add_hooks=False supports forward-mode only",
"With add_hooks=False, every sequence of forward, jvp and jmp(matrix given) calls returns exactly what it returns on the same layers with hooks (so the products are right), and jacobian, vjp, mjp, jTmjp, jmp(None) and jmjTp wrt input never return on a non-empty network: they raise AttributeError unless an earlier step raises.",
"all networks and arguments",
"Universal failure claim.",
["nnj/sequential.py:Sequential.__init__"])
add("C41","the README/documentation GGN call raises",
"`model.jTmjp(x, val, None, wrt='weights', to_diag=True, diag_backprop=True)` raises AssertionError for every Sequential and every input; more generally diag_backprop=True without both from_diag=True and to_diag=True always raises in Sequential and SkipConnection.",
"all networks, inputs, states",
"Universal failure claim.",
["nnj/sequential.py:Sequential.jTmjp","README.md"])
add("C42","the constructors produce properly wired networks",
"Running the constructors of a network whose module objects are pairwise distinct and new returns the network object in a state where every Sequential inside has its `feature_maps` attribute and exactly one forward hook on each child; parameters, and attributes and hooks of all other objects, are untouched.",
"every nesting of Sequential and SkipConnection, every state without hooks on the new objects",
"The hook bookkeeping is recursive over arbitrary nesting; every cache property depends on it.",
["nnj/sequential.py:Sequential.__init__","nnj/sequential.py:Sequential.add_hooks","nnj/skipconnection.py:SkipConnection.__init__"])
add("C43","Upsample with a scale factor that is not an integer",
"For a scale factor f >= 1, forward enlarges to floor(h f) x floor(w f) pixels by copying pixel (floor(r/f), floor(s/f)) to (r, s), but the products use int(f): jacobian and vjp are the derivative of forward exactly when f is an integer or the images have one pixel. For other factors vjp raises if floor(floor(h f)/int(f)) != h (or the same for w), and otherwise returns sums over int(f) x int(f) squares without any exception (e.g. f = 2.5 on 2 x 2 images). For f < 1 every product wrt the input raises. [Negative property.]",
"all rational factors, image sizes, channels, batches, states; all arguments for f < 1",
"Whether a wrong result appears depends on floor arithmetic of factor and size; tests use integer factors.",
["nnj/upsample.py:Upsample.vjp","nnj/upsample.py:Upsample.mjp","nnj/upsample.py:Upsample.jacobian"])
add("C44","Conv2d with any padding, dilation and groups: input products right, weight products not",
"For every padding, dilation >= 1 and number of groups (stride 1, the only one the constructor accepts) forward is the zero-padded grouped dilated cross-correlation, jacobian wrt input is its derivative, and vjp, mjp and jTmjp wrt input are the products with it. With a dilation >= 2 in a direction in which the image or the kernel has more than one pixel, every weight-space product raises (groups != 1 and padding > kernel-1 are C34).",
"all sizes, paddings, dilations, groups, channel counts, batches, weights, matrices, flag combinations",
"The weight products go through a shape computation that only fits dilation 1; tests use dilation 1, one group.",
["nnj/conv2d.py:Conv2d.jacobian","nnj/conv2d.py:Conv2d.vjp","nnj/conv2d.py:Conv2d.mjp","nnj/conv2d.py:Conv2d.jTmjp"])
add("C45","metric_backprop='approx' of the likelihoods",
"With metric_backprop='approx' and metric_shape='diag', LogGaussian.ggn and LogBinaryBernoulli.ggn return the batch sum (mean) of the diagonal of the Hessian of the log-likelihood propagated with the entrywise squares of the layers' Jacobians; the entries are never positive; the result equals that of 'exact' where diag_backprop is exact (C11), and not in general. On a Sequential or SkipConnection 'approx' raises AssertionError with metric_shape='full', and for LogBernoulli with either shape. For a model that is a single layer other than L2Norm 'approx' changes nothing; for L2Norm it forces the diagonal, and LogBernoulli.ggn raises.",
"all networks, weights, states, batches, aggregations, metric shapes",
"The combinations of likelihood, shape, model class and flag are many, and approximate values are not compared with anything by tests.",
["nnj/log_likelihoods.py:LogGaussian.ggn", "nnj/log_likelihoods.py:LogBinaryBernoulli.ggn", "nnj/log_likelihoods.py:LogBernoulli.ggn", "nnj/sequential.py:Sequential.jTmjp", "nnj/abstract_jacobian.py:AbstractJacobian.jTmjp"])
add("C46","what is in feature_maps",
"After forward(x), from any state, `feature_maps` of a Sequential is exactly the input and the output of every layer, in order. jacobian, vjp, mjp and jTmjp without `val` leave the state exactly as forward(x) does. jvp and jmp never start a new list: they append the outputs of all layers to whatever is there, so repeated forward-mode products make the list grow without bound; and on a freshly constructed Sequential, where they leave a list without the input, a later vjp with `val` raises IndexError after one such call and silently returns a wrong product after two. [Partly a negative property.]",
"all Sequentials (any nesting inside), weights, states, inputs, all lists of forward-mode calls",
"The growth and the missing first entry depend on the history of calls; tests call forward first and only once.",
["nnj/sequential.py:Sequential.forward", "nnj/sequential.py:Sequential.jvp", "nnj/sequential.py:Sequential.jmp", "nnj/sequential.py:Sequential.add_hooks"])
add("C47","The benchmark GGN returns the diagonal Gauss-Newton of the squared loss, up to k/2",
"For the class `GGN` of benchmarks/ggn/nnj.py: `GGN(model)` for a torch Sequential of supported layers with default hyper-parameters keeps a network computing the same function as `model`, and `ggn(X, y)` returns a vector of length n_params, in the order of get_weight, whose entry j is (1/B) sum_b sum_o (d output_o(X_b) / d w_j)^2. This is k/2 times the diagonal of the Gauss-Newton matrix of MSELoss()(model(X), y), k being the number of outputs (so it is not on the scale of the BackPACK benchmark it is compared with); y has no influence. A network without parameters raises TypeError.",
"for all layer lists with default hyper-parameters, all weights, all batches of size B >= 1, all y, all weights of the converted Sequential",
"The benchmark has no test and prints only timings; the factor k/2 between the two benchmarked quantities is invisible in a timing, and numeric checks would cover single networks.",
["benchmarks/ggn/nnj.py:9-29", "nnj/utils.py:10-39", "nnj/sequential.py"])
add("C48","The chain rule holds between calls on a container and calls on its parts",
"`Sequential(A, C).jacobian(x, None)` equals C.jacobian(A(x), None) @ A.jacobian(x, None), with all calls made in the same state; for any number of layers it is the product of the layers' Jacobians, each called on the output of the layer before. wrt='weight' the columns are, layer by layer in order, the layer's own weight Jacobian multiplied by the Jacobians of the later layers. `SkipConnection(F).jacobian(x, None)` is the identity on top of Sequential(F).jacobian(x, None), wrt='weight' zeros on top of it. This holds for whatever the layers return, also at kinks and for L2Norm, whose jacobian is not the derivative.",
"for all chains of supported layers of any length and nesting, all weights and states, all batches",
"The tests compare the containers with finite differences on a few networks, away from kinks; here a Sequential is related to the calls on its layers for every network and at every input.",
["nnj/sequential.py:39-41", "nnj/sequential.py:253-287", "nnj/skipconnection.py:21-42"])
add("C49","The notebook's training follows the gradient of the l2 loss, its deviations are those of a diagonal Laplace approximation, its samples forget the trained weights; the README's GGN call raises",
"Each iteration of the training loop of UNet.ipynb replaces the weights w by w minus the gradient of 1/2 sum_b |f_w(x_b) - target_b|^2 at w (where the network is differentiable), for any number of steps; the network it builds has 21976513 parameters as printed, on images of any size divisible by 16, and the whole notebook runs without exception. parameter_std is 1/sqrt(1 + sum_b g[b]) for the diagonal g returned by jTmjp, lies in (0, 1], and equals 1/sqrt(1 + sum of squared Jacobian entries) where diagonal backpropagation is exact. The predictions are the network at weights std*eps: they do not depend on the trained weights, i.e. the samples are centred at 0 and not at parameter_mean. The README's mean gradient is the gradient of the mean l2 loss; its jTmjp call (diag_backprop=True without from_diag=True) raises AssertionError on every Sequential.",
"for all networks of supported modules (the notebook's UNet among them), batches, targets, numbers of steps, noise vectors",
"The notebook and the README are not tested; that the samples ignore the trained weights does not show in any shape or exception, and the gradient claim is about derivatives at every weight vector.",
["UNet.ipynb:96-150", "UNet.ipynb:159-172", "UNet.ipynb:197-209", "UNet.ipynb:226-235", "README.md:30-55"])
add("C50","Likelihoods reject every target that does not have the shape of the output",
"`forward(x, model, target)` and `gradient(x, model, target, wrt)` of LogGaussian, LogBinaryBernoulli and LogBernoulli raise AttributeError without a target and AssertionError for every target whose shape is not that of model(x) (no broadcasting), for every aggregation and every wrt; the model's forward pass has then already replaced the feature maps. The constructor accepts aggregate_batch in (None, 'sum', 'average'), metric_shape in ('full', 'diag'), metric_backprop in ('exact', 'approx'), stores them, and raises AssertionError for everything else.",
"for all networks of supported modules, states, batches, targets of any shape, constructor arguments",
"The tests only pass well-shaped targets; a broadcast target would silently produce a wrong likelihood.",
["nnj/log_likelihoods.py:10-24", "nnj/log_likelihoods.py:29-32", "nnj/log_likelihoods.py:52-54", "nnj/log_likelihoods.py:98-101", "nnj/log_likelihoods.py:123-126", "nnj/log_likelihoods.py:174-177", "nnj/log_likelihoods.py:198-201"])
add("C51","Other values of wrt: never a tensor; rejected by five methods of Sequential, silently None elsewhere",
"For a wrt other than 'input' and 'weight' no product of any module returns a tensor or list. Sequential raises AssertionError in jacobian, jvp, jmp, vjp and mjp before running anything, and SkipConnection raises with it; but Sequential.jTmjp runs the backward loop exactly as for wrt='input' (same effect, same errors) and then returns None, Sequential.jmjTp returns None after the forward pass, and the other layers return None from jvp. In particular the misspelt wrt='weights' of README.md is not reported.",
"for all networks of supported modules (the container statements: for all lists of modules whatsoever), arguments, flags, states",
"The tests only use the two valid values; a silent None looks like a module without parameters.",
["nnj/sequential.py:59", "nnj/sequential.py:96", "nnj/sequential.py:229", "nnj/sequential.py:264", "nnj/sequential.py:290-347", "nnj/sequential.py:124-211", "nnj/skipconnection.py:21-226", "nnj/linear.py:40-61", "README.md:43-52"])
add("C52","Slices: Sequentials that share layers do not disturb each other's results with val=None; caches can be stale",
"model[a:b] builds a new Sequential of the same layer objects, which adds its own hooks to them. After any number of such slices, and any history of calls on any networks, every valid call with val=None on the model, on a slice, or on any network sharing modules with them returns what it would return if nothing were shared (in any properly wired state with the same parameter values). A val obtained from model(x) stays usable across calls on networks that share only layers without caches with the model; if they share an inner Sequential or a MaxPool2d layer it does not: with model = Sequential(Sequential(ReLU())), val = model(1), then model[0:1](-1), model.vjp(1, val, 1) is 0 instead of 1.",
"for all networks of supported modules, all sets of outside Sequentials with hooks on their modules, slice bounds, histories, calls, batches",
"Hooks accumulate on shared layers, so every forward pass of one Sequential writes into the feature maps of the others; the tests never slice a model nor share a layer.",
["nnj/sequential.py:10-28", "nnj/sequential.py:30-46"])
add("C53","model.append(layer) and model[k] = layer: forward and forward mode follow, the backward passes do not",
"After model.append(layer) on a properly constructed Sequential, with a layer of its own: forward is the layer applied to what the model computed before; jvp and jmp wrt input multiply with layer.jacobian(model(x)) @ model.jacobian(x) (of the model as it was); vjp, mjp, jTmjp and jmjTp with val=None and valid arguments return what the model returned before the edit, and so does jacobian if the layer keeps the number of features: with model = Sequential(ReLU()) and an appended Linear layer of weight 2, the derivative at 1 is 2, jvp uses 2, vjp and jacobian use 1. If the layer has parameters, jvp and jmp wrt weight never return. get_weight and set_weight follow the edited layers (the new layer's parameters last), while the attribute _n_params keeps the constructor's count. After model[k] = layer, forward uses the new layer and jacobian, vjp, mjp, jTmjp and jmp(matrix=None) raise IndexError.",
"for all networks of supported modules, layers, states, batches, vectors and matrices; the statement on weights for arbitrary modules and arguments",
"Editing is inherited from torch.nn.Sequential and never exercised by the tests; the constructor's copies of the layer list and parameter count go stale without an error.",
["nnj/sequential.py:9-36", "nnj/sequential.py:48-121", "nnj/sequential.py:218-347"])
add("C54","copy.deepcopy(model): forward mode works, backward passes of the copy raise IndexError, and the copy writes into the original",
"After copy.deepcopy(model), in any state of a properly constructed network that is not inside another one: forward, jvp and jmp of the copy return exactly what those of the original return (or raise the same exception) for all arguments, and so do jacobian, vjp, mjp and jTmjp given val, which read the copied feature maps. But for a Sequential, jacobian, vjp, mjp, jTmjp and jmp(matrix=None) of the copy with val=None raise IndexError for every batch (given arguments its asserts accept), because the hooks of the copied layers append to the feature maps of the original: each forward pass of the copy appends one tensor per layer there. Whatever is done with the copy, including set_weight, the original keeps its parameters, and its products with val=None return what they returned before.",
"for all networks of supported modules, choices of the new objects, states, batches and arguments; the last statement for all sequences of uses of the copy",
"Deep copies are never made in the tests; the failure depends on which object a closure refers to, not on any value.",
["nnj/sequential.py:20-36", "nnj/sequential.py:48-121", "nnj/abstract_jacobian.py:234-247"])
add("C55","Parameters are views into the vector given to set_weight: in-place writes reach every model set from it",
"With storages in the model: after model.set_weight(w) succeeds, and any sequence of in-place writes to any storage (w, parameters, optimiser steps), uses of any networks, and set_weight calls on networks without a parameter in common, calling model.set_weight(w) again changes nothing; model.get_weight() returns the current entries of w, not those at the time of set_weight, so writing w[j] = a changes entry j of model.get_weight() to a and no other. Two networks set from the same vector keep the same weights under all in-place writes to either: after model.set_weight(w); other.set_weight(w), writing 5 into model's parameter makes other.get_weight() return 5. set_weight itself writes to no storage. The vector returned by get_weight is not linked to the model. The parameters of a network made by convert_to_nnj are and stay equal to the given ones under in-place writes to either, and set_weight on the converted network leaves the given ones alone. Forgetting the storages, every operation does what the model of the other properties does.",
"for all networks (the first statement for arbitrary modules), vectors, storage layouts and sequences of operations",
"Sharing of storage only shows when a tensor is modified in place after the call, possibly much later and through another object.",
["nnj/abstract_jacobian.py:234-246", "nnj/utils.py:9-34"])
add("C56","vjp, mjp and jacobian return what torch's autograd computes, at every input",
"For every network with no Softplus unit above its threshold (and L2Norm only where its jacobian is right, C31): vjp(x, None, v, wrt) returns, sample by sample, the gradients that torch.autograd computes for the forward pass with incoming gradient v, wrt the input and wrt the parameters in get_weight order; the rows of mjp are the gradients for the rows of the given matrix, and row i of jacobian is the gradient of output i (torch.autograd.functional.jacobian). No differentiability is assumed: this includes ReLU at 0, ties inside the windows of MaxPool2d and TruncExp outside [-15, 15]. For a Softplus layer vjp agrees with autograd exactly when every unit with a nonzero incoming gradient is at or below its threshold; for L2Norm exactly when eps = 0 or the incoming gradient is orthogonal to the sample.",
"for all networks, parameters, batches and incoming gradients",
"The tests compare with autograd at random inputs, which almost surely meet no kink, tie or threshold.",
["tests/jacobians.py", "tests/jacobian_products.py", "nnj/sequential.py:114-186", "nnj/relu.py", "nnj/maxpool2d.py", "nnj/truncexp.py:11-22", "nnj/softplus.py", "nnj/l2norm.py"])
add("C57","Reshape accepts exactly the shapes of the right number of entries, one of them possibly left open",
"Reshape(*z).forward on a nonempty batch of shape (b, *s) returns exactly when z lists the sizes of a shape with as many entries as s, with at most one of them written as -1; the result has that shape and the same entries in the same order. In every other case (no such shape, two sizes left open, a negative size other than -1) it raises RuntimeError. On an empty batch a size left open always raises. Reshape(-1) is Flatten(): forward and all products coincide, errors included. The products do not look at the sizes, so a wrong size is reported by forward only.",
"for all argument lists (integers), input tensors and states",
"The tests construct Reshape with one matching shape; the constructor checks nothing.",
["nnj/reshape.py:9-18", "nnj/flatten.py:15-17"])
add("C58","Upsample ignores its mode in all products, and with size= every product raises",
"nnj.Upsample passes all constructor arguments to nn.Upsample, but its products only look at int(scale_factor). Whatever the interpolation mode, jacobian, vjp, mjp and jTmjp return what they return for mode='nearest' with the same factor (when val is given always, when val is None as soon as the two forward passes return the same shape). For mode='bilinear' forward interpolates, so vjp and jacobian agree with its derivative exactly when the factor is 1 or the images consist of a single pixel. With size=(H, W) or a pair of scale factors forward works, but every product wrt the input raises, for all arguments; in well-formed calls the exception is TypeError. Giving both or none of size and scale_factor makes forward raise ValueError.",
"for all options, image sizes, batches, vectors, matrices and states",
"The tests construct Upsample(scale_factor=integer) only.",
["nnj/upsample.py:10-13", "nnj/upsample.py:24-35", "nnj/upsample.py:136", "nnj/upsample.py:175", "nnj/upsample.py:222", "nnj/upsample.py:271"])
add("C59","User-defined elementwise layers work anywhere in a network",
"For a user-defined subclass of AbstractDiagonalJacobian that applies a function f to every entry and whose jacobian computes the diagonal as g(x, val) entry by entry: jacobian(x, None) is diagonal with entries g(x, f(x)), and is the derivative of forward exactly if g(x, f(x)) is the derivative of f at every entry; with val given it is g(x, val) whatever val is. Between any two networks A and C, jacobian and vjp of Sequential(A, layer, C) multiply the Jacobian of A at x, this diagonal at A(x), and the Jacobian of C at the output of the layer, and the product is the derivative if all three are. The networks of C01-C56 may contain such layers anywhere.",
"for all real functions f and g, shapes, batches, networks A and C of any depth, states",
"The built-in activations are six fixed functions; the documentation promises that new layers only need a jacobian.",
["nnj/abstract_diagonal_jacobian.py:16-25", "README.md:66-89", "nnj/sequential.py:55-75"])
add("C60","vjp with a vector of another shape",
"For vjp with respect to the input of a network of Linear, elementwise layers, Flatten and Reshape on B samples and a vector with R rows: if R = 1, B = 1 or R = B, the result is, row by row, the product of the row with the Jacobian of the sample of that index (a single row or a single sample standing for all), and has max(R, B) rows, except that it has R rows if no layer is elementwise. Otherwise the call raises if some layer is elementwise, and else multiplies every row with the (common) Jacobian. Linear with a vector of another width w: w = 1 stands for a repeated entry, a layer with one output uses the sum of the entries, anything else raises. Conv2d, MaxPool2d and Upsample raise AssertionError unless the vector has exactly the shape (B, outputs). Flatten and Reshape return any vector unchanged; Linear and elementwise layers raise for a vector that is not two-dimensional.",
"for all networks of these layers of any depth and nesting, batch sizes, numbers of rows, inputs, vectors, states",
"Vectors of the documented shape are the only ones tested; which wrong shapes are silently accepted, and what is then computed, depends on the broadcasting rules of einsum in each layer and on their combination.",
["nnj/linear.py:171-189", "nnj/abstract_diagonal_jacobian.py:108-121", "nnj/sequential.py:218-250", "nnj/flatten.py:115-125", "nnj/conv2d.py:157-172", "nnj/maxpool2d.py:150-170", "nnj/upsample.py:118-136"])
add("C61","Sequential and SkipConnection with any correct layer, in particular any Conv2d, stay correct with respect to the input",
"Take any layer whose forward, jacobian, vjp, mjp and jTmjp with respect to the input are right on their own, with or without `val`, and leave the state alone. Put such layers together with the layers of nnj into Sequentials and SkipConnections of any nesting: then forward acts sample by sample, jacobian with respect to the input is the derivative of forward where the layers met are differentiable, vjp, mjp and jTmjp (all four diagonal flags) are the products with it, diag_backprop multiplies by the entrywise squared Jacobians layer by layer, and after val = forward(x) the products with val are the same and change no state. Conv2d with any padding, dilation and number of groups is such a layer, so networks with them are right with respect to the input although their weight products are not (C44).",
"for all networks of any depth and nesting over all such layers, parameters, batch sizes, inputs, vectors, matrices and states",
"Nested containers with caches over layers that are not known in advance; the tests use a fixed list of networks, none with dilation or groups.",
["nnj/sequential.py:10-347", "nnj/skipconnection.py:10-226", "nnj/conv2d.py:12-330", "nnj/abstract_jacobian.py:1-140"])
add("C62","ReLU(inplace=True) overwrites feature maps without harm, except in SkipConnection",
"Build any network with some ReLUs made with `inplace=True`, which write their result into the storage of their input: the caller's tensor, or a tensor held in some `feature_maps`. If no SkipConnection has an `_F` that overwrites its own input, then forward returns what it returns without inplace; afterwards the caller's tensor holds relu(x) if the layers before the first in-place ReLU only reshape, and is unchanged otherwise; all other tensors and the parameters keep their values; and after val = model(x) the products vjp, mjp, jTmjp with x and val, with respect to input or weights, and jacobian of a Sequential, are those of the network without inplace at the original x, although the feature maps and x itself were overwritten. A SkipConnection whose `_F` overwrites its input returns relu(x) followed by _F(x): SkipConnection(ReLU(inplace=True))(-1) is (0, 0), not (-1, 0).",
"for all networks of any depth and nesting, choices of in-place ReLUs, memory contents, parameters, batch sizes, inputs, vectors, matrices and flags",
"The tests build no in-place layer; storage shared between feature maps, inputs and outputs is not visible from returned values.",
["nnj/relu.py:8-30", "nnj/sequential.py:18-37", "nnj/skipconnection.py:30-45", "nnj/abstract_diagonal_jacobian.py:1-60"])
add("C63","Conv2d ignores padding_mode in its products, and rejects padding given as a string",
"nnj.Conv2d takes every padding_mode of nn.Conv2d. Forward computes the cross-correlation of the image padded in that mode (circular, replicate, reflect), and its derivative sums the kernel entries that read a pixel inside or through a copy beyond the border. But jacobian and all products, for every wrt, are those of padding_mode=\"zeros\": with val given always, with val=None whenever F.pad accepts the padding (otherwise they raise as forward does). So jacobian and vjp are exact if and only if, for every output and input pixel, the kernel entries beyond the border that read a copy of the pixel add up to 0: true without padding, false whenever there is padding and the kernel is positive. The constructor never returns an object for padding=\"same\" or \"valid\" (TypeError).",
"for all modes, numbers of channels and groups, image and kernel sizes, paddings, dilations, weights, batch sizes, inputs, vectors, matrices and flags",
"The tests only build Conv2d with padding_mode=\"zeros\" and integer paddings, and check a few fixed sizes.",
["nnj/conv2d.py:15-41", "nnj/conv2d.py:44-57", "nnj/conv2d.py:157-190", "nnj/conv2d.py:248-290", "nnj/conv2d.py:367-430"])
add("C64","The tests in tests/jacobian_products.py pass for every network, and detect wrong products",
"Each test function of tests/jacobian_products.py, on a network it supports (the backward products: all; the forward products: those with forward products; jmjTp with a full matrix over weights: those whose nested Sequentials and SkipConnections all have parameters), passes for every batch, all weights and every outcome of torch.randn, and leaves parameters and hooks as they were; so does any sequence of tests on any networks in one program. Conversely, for any module whatsoever, a test passes exactly when the returned product has the shape of the product formed from the returned Jacobian and each of its entries is within atol=1e-4, rtol=1e-5 of it, and raises AssertionError otherwise (jmjTp with full matrices over weights: for the block matrices it draws, which can be any matrix that is zero outside the blocks of the layers; jTmjp wrt weights: if a tensor of the right shape is returned, since that test does not compare shapes; jTmjp wrt input with from_diag=True is only tried with the metric 1). If a network with parameters contains a Sequential or SkipConnection without parameters, the test of jmjTp with a full matrix over weights raises IndexError in its own helper.",
"for all tests, networks, weights, batch sizes, inputs, random draws and sequences of tests; the detection part for all modules",
"The tests are run on some dozens of layers with a few random inputs; that they pass for every network, weight and draw, and what passing means, is not something they can check themselves.",
["tests/jacobian_products.py:191-606"])
add("C65","What the tests in tests/jacobians.py check, and where they pass",
"The two test functions of tests/jacobians.py compare jacobian(x, None, wrt) with torch's autograd, output by output. On a network each passes if all entries are within atol=1e-4, rtol=1e-5 of autograd's and raises AssertionError otherwise; parameters and hooks are as before, and the gradients are zero again afterwards. They pass wherever no Softplus unit is above its threshold and L2Norm has eps = 0, and so does any sequence of such tests in one program; a Softplus layer passes everywhere if its threshold is at least 10 (default 20); an L2Norm layer passes where eps <= 1e-4 |x|^2, but fails e.g. at inputs of one entry with |x| = eps. The test wrt the weights needs gradients that are absent or zero and each parameter used by one layer only: with a shared parameter it raises RuntimeError, since parameters() yields it once while _n_params counts it twice. For any module and any gradients, the tests pass exactly if the returned Jacobian has the right shape and all its entries are within the tolerance, and raise AssertionError otherwise.",
"for all networks, weights, batch sizes, inputs and sequences of tests; the detection part for all modules and gradients",
"The tests are run on some dozens of layers with random inputs of moderate size, where the deviations of Softplus and L2Norm are below the tolerance; the inputs at which they would fail, and the failure with shared parameters, do not occur.",
["tests/jacobians.py:142-220"])
add("C66","Linear layers on samples with several axes have a forward pass but almost no products",
"nnj.Linear accepts inputs of shape (B, t1, ..., tr, i) with r >= 1, like nn.Linear: forward maps every row by the same affine map, and the Jacobian of a sample is block diagonal with the weight matrix in each block. But jacobian raises, every product with respect to the weights raises, and every method called with matrix=None raises, whatever the other arguments. With a given vector or matrix the products with respect to the input are exact if t1 * ... * tr = 1. If t1 * ... * tr >= 2 they never have the right shape: with one entry for each input or output of a sample they raise, unless the layer has width one on the contracted side, in which case a tensor with the shape of a single row is returned without an error.",
"for all widths, axes, batch sizes, inputs, parameters, with and without bias, all flags",
"The tests of Linear use inputs with one axis only.",
["nnj/linear.py:9-294"])
add("C67","Forward mode does not depend on hooks, caches, or layer objects being distinct",
"Let a network be built from Linear, activations, Flatten, Reshape, L2Norm, Conv2d, Upsample, MaxPool2d, Sequential and SkipConnection, where the same layer object may be used at several places, in a state with any forward hooks and any feature_maps (the only requirement: a hook belongs to a Sequential that has its list, which every construction ensures). Then forward computes the same map sample by sample; jvp and jmp with respect to the input multiply by the derivative of forward; jvp and jmp with respect to the weights multiply by a matrix with a column for each parameter entry and place of use, so that the directional derivative of a network with tied parameters is one call of jvp with the direction repeated at every use. The results depend on the state only through the parameter values.",
"for all networks (with repetitions), parameters, hooks, cached feature maps, batch sizes, inputs, vectors, matrices",
"Needs all ways to reuse layer objects and all hook configurations; C38 shows that the backward passes fail in exactly these cases.",
["nnj/sequential.py:30-36", "nnj/sequential.py:48-121", "nnj/skipconnection.py:17-84"])
add("C68","Batches without samples",
"Let x be a batch with 0 samples and a network be built from Linear, activations, Flatten, Reshape, L2Norm, Conv2d, Upsample, MaxPool2d, Sequential and SkipConnection (repeated layer objects and any hooks allowed). forward returns a batch with 0 outputs exactly if the network contains no Flatten, no L2Norm and no Reshape with an open size; otherwise it raises. If the network contains an activation, an L2Norm or a SkipConnection, every method with respect to the input (jacobian, jvp, jmp, vjp, mjp, jmjTp, jTmjp) raises for every vector or matrix, also when the value just returned by forward is passed along; the same holds for a Sequential whose forward raises. If it contains a Linear or a SkipConnection, vjp, mjp and jmp with respect to the weights raise, and so does the jacobian of a Sequential, although the jacobian of a Linear itself returns a tensor with 0 samples.",
"for all networks, parameters, hooks, cached feature maps, batches without samples, vectors, matrices, flags",
"An edge case that no test draws; which layers support it is scattered over all files (reshape with -1 and x[0].numel()).",
["nnj/flatten.py:16", "nnj/l2norm.py:18", "nnj/relu.py:15-30", "nnj/linear.py:21-90", "nnj/skipconnection.py:21-60", "nnj/sequential.py:218-287"])
add("C69","Forward mode gives the exact product or raises; which networks support it",
"For a network built from all layers (repeated layer objects and any hooks allowed) and a batch with at least one sample: jvp wrt input returns exactly if the network contains no Conv2d, Upsample or MaxPool2d; jmp wrt input with a matrix of r columns returns exactly if it contains no Conv2d or Upsample and every MaxPool2d inside has exactly r inputs, because MaxPool2d.jmp reshapes the columns of the matrix like its inputs. So with two pooling layers of different sizes jmp wrt input raises for every matrix. Wrt weight, jvp and jmp return exactly if there is no Conv2d, every SkipConnection contains a parameter, and every layer after a parametric one in its Sequential lets the product wrt input through (pooling and upsampling before the first parameter are harmless). Whenever they return, the result is the product with the derivative of forward (None wrt weight without parameters); otherwise they raise.",
"for all networks, parameters, states, non-empty batches, vectors, matrices, column numbers; for MaxPool2d alone all kernel sizes, strides, paddings and dilations with non-empty windows",
"Tests use square or random matrices per layer; which whole networks support forward mode, and for which column numbers, is the result of a case analysis over all compositions.",
["nnj/maxpool2d.py:61-107", "nnj/conv2d.py", "nnj/upsample.py", "nnj/sequential.py:48-122", "nnj/skipconnection.py:45-84"])
add("C70","Linear, products wrt weight: which arguments are accepted, and what is returned for those of a wrong shape",
"For a Linear layer with i inputs, o outputs and P weights on B samples. jvp wrt weight raises for every two-dimensional vector that is not of shape (B, P) (AssertionError if the width is not P). jmp wrt weight raises AssertionError for a matrix with another number of rows than P; without a bias a matrix of shape (R, P, m) is silently read as one of shape (B, P, R*m/B), its numbers in order, if B divides R*m, and refused otherwise; with a bias and R != B it is refused except for R = 1, m = B and for B = 1, m = 1, where the returned numbers mix columns and samples and are no product with a Jacobian. vjp, mjp and jTmjp wrt weight use neither the weights nor the number of outputs (only whether there is a bias): an argument of another width w gives, without an error, the product for a layer with w outputs. vjp with R != B rows raises with a bias; without one a single row is repeated, R rows for one sample give one long row. mjp and jTmjp (full to full) raise AssertionError for R != B; jTmjp (diagonal to diagonal) with a single row for several samples silently returns one row of B*w*i (+ w) numbers, with one sample and several rows it works row by row, else it raises.",
"for all sizes, batches, parameters, states and arguments of the stated shapes (at least one sample, row and column)",
"Tests only pass arguments of the right shape; which of the others are refused and which give wrong numbers depends on the broadcasting and reshaping rules for all sizes.",
["nnj/linear.py:40-90", "nnj/linear.py:171-212", "nnj/linear.py:215-294"])
add("C71","jmjTp gives the pushed-forward metric or raises, and for which networks",
"Wrt input, jmjTp returns exactly if the network contains no Conv2d, Upsample or MaxPool2d; then it is J M J^T (or its diagonal) with J what jacobian returns. Wrt weight, for a network with parameters, it returns exactly if there is no Conv2d inside and no Upsample or MaxPool2d after the first layer with parameters of its Sequential (before it they are harmless); then it is J M' J^T with M' the diagonal blocks of M that belong to one layer each. In all other cases it raises, whatever the state, the value, the matrix (tensor, list or None) and the flags.",
"for all networks of the library's layers, parameters, batches, metrics and flags; the raising part for all states and arguments whatsoever",
"Which combinations of layers are supported is a statement about all nestings of Sequential and SkipConnection; tests try a handful of networks.",
["nnj/sequential.py:Sequential.jmjTp", "nnj/skipconnection.py:SkipConnection.jmjTp", "nnj/conv2d.py:Conv2d.jmjTp", "nnj/maxpool2d.py:MaxPool2d.jmjTp", "nnj/upsample.py:Upsample.jmjTp"])
add("C72","The Gauss-Newton diagonals are exact second derivatives for piecewise linear networks",
"For a network of Linear, Conv2d, ReLU, MaxPool2d, Upsample, Flatten and Reshape layers (and piecewise linear user-defined ones) in Sequentials and SkipConnections, at inputs where it is differentiable, the i-th entry of ggn(x, model, wrt='weight') with metric_shape='diag' is the second derivative of the likelihood's forward in the i-th weight; wrt='input' (full or diag) gives the Hessians in the samples; jTmjp wrt weight gives, for any loss whose Hessian in the outputs is the metric, the exact diagonal blocks of the Hessian in the weights, one per layer. For a single layer and metric_shape='full' it is the whole Hessian, everywhere. This fails for other activations: for Tanh on one number the returned value is the second derivative only at 0 or if the target is met exactly.",
"for all such networks, parameters, batches, targets (normalised for LogBernoulli), losses, directions within a layer",
"Second derivatives at all points and for all architectures are not testable; the tests compare first-order products only.",
["nnj/log_likelihoods.py:LogGaussian.ggn", "nnj/log_likelihoods.py:LogBinaryBernoulli.ggn", "nnj/log_likelihoods.py:LogBernoulli.ggn", "nnj/sequential.py:Sequential.jTmjp", "nnj/linear.py:Linear.jTmjp", "nnj/conv2d.py:Conv2d.jTmjp"])
add("C73","The Gauss-Newton matrices are the Fisher information of the likelihoods",
"Let the targets of a batch be random with the distribution the likelihood itself assigns to them: a batch of targets has probability exp(forward(x, model, target)) (LogBinaryBernoulli over all 0/1 targets, LogBernoulli over all one-hot targets), or, for LogGaussian, density (2 pi)^(-Bk/2) exp(forward(x, model, target)). These are probability distributions (total mass 1). Under them gradient(x, model, target) has expectation 0 and its covariance matrix is -ggn(x, model), with respect to the inputs and to the weights; with metric_shape='diag' ggn is minus the diagonal of the covariance. With aggregate_batch='average' the exponent is B * forward and the covariance is -ggn / B.",
"all networks built from the modelled layers (no differentiability needed), all stores with arbitrary parameters and hooks, all batch sizes, all input shapes; aggregate_batch sum or average, metric_shape diag or full, metric_backprop exact; expectations over all binary targets, all classes, all real targets",
"It relates three methods of each likelihood (forward, gradient, ggn) over all targets at once: an exponential sum or an integral over R^(Bk), for every network. A test evaluates single targets.",
["nnj/log_likelihoods.py:LogGaussian.forward", "nnj/log_likelihoods.py:LogGaussian.gradient", "nnj/log_likelihoods.py:LogGaussian.ggn", "nnj/log_likelihoods.py:LogBinaryBernoulli.forward", "nnj/log_likelihoods.py:LogBinaryBernoulli.gradient", "nnj/log_likelihoods.py:LogBinaryBernoulli.ggn", "nnj/log_likelihoods.py:LogBernoulli.forward", "nnj/log_likelihoods.py:LogBernoulli.gradient", "nnj/log_likelihoods.py:LogBernoulli.ggn"])
add("C74","Optimising the weights with the returned gradients and Gauss-Newton matrices",
"Where the network is differentiable, model.set_weight(model.get_weight() + eta * gradient) increases forward(x, model, target) for all small enough eta > 0, unless the gradient is 0. If only one layer has parameters and only Flatten, Reshape and Upsample come after it, then the gradient is 0 exactly if no weights have a larger log-likelihood; for Sequential(Linear, Linear) this fails. For LogGaussian(metric_shape='full') and a single layer with parameters, ggn @ d = -gradient has solutions, and they are exactly the d for which get_weight() + d maximises the log-likelihood.",
"all networks built from the modelled layers (second part: those with one layer that has parameters, arbitrary fixed features before it), all weights, batch sizes, inputs, targets (LogBernoulli: one class vector, sums 1); aggregate_batch sum or average",
"The claims compare forward at all weights (a global maximum, all step sizes below a bound) with the values that gradient and ggn return at one point.",
["nnj/log_likelihoods.py:LogGaussian.forward", "nnj/log_likelihoods.py:LogGaussian.gradient", "nnj/log_likelihoods.py:LogBinaryBernoulli.forward", "nnj/log_likelihoods.py:LogBinaryBernoulli.gradient", "nnj/log_likelihoods.py:LogBernoulli.forward", "nnj/log_likelihoods.py:LogBernoulli.gradient", "nnj/log_likelihoods.py:LogGaussian.ggn", "nnj/abstract_jacobian.py:AbstractJacobian.set_weight"])
add("C75","Exceptions and shapes do not depend on the numbers, nor on the number type",
"Take two objects built by the same constructor calls (any layers except MaxPool2d, nested in Sequential and SkipConnection in any way) over two number systems, for instance real numbers and floating point numbers with infinities and NaN. Any use of the one (model(x), any method with any arguments and flags, get_weight, set_weight, forward/gradient/ggn of a likelihood) and the same use of the other with arguments of the same shapes, in states of the same shapes, either both return results of the same shapes or both raise the same exception, and leave states of the same shapes; so for whole histories of uses. Hence networks evaluated in floating point return, for all fitting arguments, results with the shapes proved for real numbers, and shapes and exceptions can be computed by running the program on tensors without entries. For MaxPool2d this is false: after forward(x), vjp at a smaller image with val given returns or raises IndexError depending on the numbers in x.",
"all networks of the modelled layers without MaxPool2d (also ill-formed ones), all argument tensors, optional arguments, flags, all states, all histories; all number types with the operations used, with no laws assumed",
"Tests sample numbers and use float32 or float64 only; that no value (NaN, infinity, denormal) changes control flow or a shape is a statement about all values and all number types.",
["nnj/linear.py:Linear", "nnj/conv2d.py:Conv2d", "nnj/upsample.py:Upsample", "nnj/l2norm.py:L2Norm", "nnj/reshape.py:Reshape", "nnj/flatten.py:Flatten", "nnj/sequential.py:Sequential", "nnj/skipconnection.py:SkipConnection", "nnj/abstract_jacobian.py:AbstractJacobian", "nnj/abstract_diagonal_jacobian.py:AbstractDiagonalJacobian", "nnj/log_likelihoods.py:LogBernoulli", "nnj/maxpool2d.py:MaxPool2d.vjp"])
add("C76","Overflowing logits make gradients and metrics of the classification likelihoods NaN, and one step destroys the network",
"The likelihoods compute probabilities as exp(v) / (1 + exp(v)) and exp(v) / sum exp(v). In every number format in which NaN is absorbing, sums with an infinite term are infinite or NaN and inf / inf is NaN, and for every model: wherever exp of an output overflows, the vector that gradient passes to model.vjp is NaN, and the metric that ggn passes to model.jTmjp is NaN (a row and a column of NaN for LogBernoulli). For nnj.Linear one overflowing logit of one sample makes all gradient entries of the weights and the bias of that class NaN, and the whole gradient wrt the input, with aggregation by sum or average. For a Sequential of any layers that ends in nnj.Linear, the gradient wrt the weight, if returned, is NaN at the bias of that class; after set_weight(w + eta * gradient), for any eta, every output that the network returns for any input is NaN in that class. The formula of nnj.Sigmoid does not have this limit: in numbers up to M without rounding, exp(v) / (1 + exp(v)) is NaN for all v > log M while 1 / (1 + exp(-v)) is the exact probability for all v >= 0.",
"all number types with the stated laws of NaN and infinity, all models (any vjp, jTmjp), all batch sizes, outputs, targets, states, wrt, flags; all preceding layers of the Sequential, all step sizes",
"Tests use small random networks whose logits stay far below 88 (float32); that every overflow anywhere in a batch ends in NaN weights is a statement about all values.",
["nnj/log_likelihoods.py:LogBinaryBernoulli.gradient", "nnj/log_likelihoods.py:LogBinaryBernoulli.ggn", "nnj/log_likelihoods.py:LogBernoulli.gradient", "nnj/log_likelihoods.py:LogBernoulli.ggn", "nnj/linear.py:Linear.vjp", "nnj/sequential.py:Sequential.vjp", "nnj/abstract_jacobian.py:AbstractJacobian.set_weight", "nnj/sigmoid.py:Sigmoid"])
add("C77","A new layer that implements only forward and jacobian works in every network, except for diagonal metrics",
"The documentation promises that a new nnj layer only has to implement forward and jacobian, and that all other products are then usable. In every nesting of Sequential and SkipConnection around library layers and new layers of this kind (with or without parameters) whose two methods are right: forward works sample by sample; jacobian wrt input is the derivative of the network, jacobian wrt weight is its derivative in the coordinates of get_weight/set_weight; vjp, mjp, jvp, jmp, jmjTp with all diagonal flags, and jTmjp of full metrics with full results, are the products with the returned Jacobian, wrt input and wrt weight (jTmjp wrt weight as the list of blocks of the layers). The promise fails for the diagonal metrics of jTmjp: every Sequential that ends with a new layer whose input and output sizes differ (neither being 1) raises for from_diag=True and also for the default matrix=None.",
"all networks, all new layers with a right forward and jacobian, all states, batches, arguments",
"Tests only cover the layers of the library, all of which override the inherited products; that the inherited ones fit into the loops of Sequential and SkipConnection is a statement about layers not yet written.",
["nnj/abstract_jacobian.py:AbstractJacobian.jacobian", "nnj/abstract_jacobian.py:AbstractJacobian.vjp", "nnj/abstract_jacobian.py:AbstractJacobian.jTmjp", "nnj/abstract_jacobian.py:AbstractJacobian.jmjTp", "nnj/sequential.py:Sequential", "nnj/skipconnection.py:SkipConnection"])
add("C78","Rounding errors of forward are tiny changes of the weights",
"In arithmetic where sums and products have a relative rounding error of at most u (the standard model of floating point arithmetic), forward of a network of Linear layers with at most m inputs each, ReLU, Flatten, Reshape, Sequential and SkipConnection returns, for each sample, exactly what the same network returns in exact arithmetic with some other weights, each of which differs from the value get_weight returns by a relative error of at most (1+u)^(m+2)-1, whatever the depth; this is at most 2(m+2)u when (m+2)u <= 1/2. Without parameters there is no error at all. For one Linear layer the error of each output is at most (1+u)^(in+2)-1 times the sum of |weight||input| and |bias|.",
"all such networks, all number types with relative rounding errors, all states, batches, inputs",
"Tests compare with tolerances chosen by experience on small networks; a bound for every width, depth and input cannot be tested.",
["nnj/linear.py:Linear", "nnj/relu.py:ReLU", "nnj/sequential.py:Sequential.forward", "nnj/skipconnection.py:SkipConnection.forward", "nnj/flatten.py:Flatten.forward", "nnj/reshape.py:Reshape.forward"])
add("C79","Single and double precision: when a network keeps its dtype, when it raises, when it loses digits",
"If parameters, inputs, vectors and matrices all have dtype d and d is torch's default dtype, no method of any network raises a dtype error and everything returned has dtype d; vjp with a vector and mjp and jTmjp with a matrix do return (shapes being right, a dtype error is their only exception); the same holds for double precision networks with the default left at single, as long as they contain no MaxPool2d, no Upsample and no Conv2d built with use_vmap_for_backprop=False (for jacobian, and mjp and jmp without a matrix: and are not a Conv2d alone). If the default dtype is another one than d: vjp and mjp with respect to the input of any network containing a MaxPool2d or Upsample raise a dtype error, although forward returns, so that such networks cannot be trained; Conv2d.jacobian on its own (also mjp and jmp without a matrix) raises, while inside a Sequential it does not; MaxPool2d.jacobian has the default dtype. In double precision with the default at single, a Conv2d with use_vmap_for_backprop=False anywhere in a network makes vjp and mjp with respect to the weights return, without any warning, numbers that were rounded to single precision, in a single or a double tensor. forward raises whenever the input has another dtype than the parameters and there is a parametric layer; set_weight changes the dtype of all parameters to that of the vector.",
"all networks (nested Sequentials and SkipConnections of all layers), all default dtypes, all dtypes of data, all flags",
"The test suite runs in single precision only, with the default dtype unchanged; whether a given combination of layers, flags and dtypes raises or silently loses digits needs a case for each combination.",
["nnj/conv2d.py:Conv2d.jacobian", "nnj/conv2d.py:Conv2d.vjp", "nnj/conv2d.py:Conv2d.mjp", "nnj/conv2d.py:Conv2d.jTmjp", "nnj/maxpool2d.py:MaxPool2d.vjp", "nnj/maxpool2d.py:MaxPool2d.mjp", "nnj/upsample.py:Upsample.vjp", "nnj/l2norm.py:L2Norm.jacobian", "nnj/sequential.py:Sequential.mjp", "nnj/abstract_jacobian.py:AbstractJacobian.set_weight"])
add("C80","Which methods evaluate the network, and how often",
"Given val, jacobian, vjp, mjp and jTmjp of any nesting of Sequential and SkipConnection evaluate no layer: in a network whose layers raise as soon as they are evaluated they have the same result and leave the same state. Without val a Sequential is evaluated exactly once, at the beginning. jmjTp of nested Sequentials given val evaluates no layer either, but jmjTp of a SkipConnection with to_diag=False evaluates the inner network although val is given. jvp and jmp of a Sequential use val for nothing and evaluate all layers again: a layer that lies inside d Sequentials is evaluated d times by one jvp or jmp (with or without val), but once by vjp or mjp, and not at all by these if val is given.",
"all networks of arbitrary (also user-defined) layers, all inputs, vectors, matrices and states, all nesting depths d",
"A second evaluation changes no number the tests compare; it only shows as time, or in layers with side effects. The number of evaluations as a function of the nesting depth needs all depths.",
["nnj/sequential.py:Sequential.forward", "nnj/sequential.py:Sequential.jvp", "nnj/sequential.py:Sequential.jmp", "nnj/sequential.py:Sequential.jmjTp", "nnj/sequential.py:Sequential.vjp", "nnj/sequential.py:Sequential.mjp", "nnj/sequential.py:Sequential.jTmjp", "nnj/skipconnection.py:SkipConnection.jmjTp"])
add("C81","diag_backprop has the order of complexity of backpropagation; the exact diagonal has not",
"The README says that the approximate version of jTmjp has the same order of complexity as a standard backpropagation. Counted in scalar operations, for every network (all layers, any nesting, use_vmap_for_backprop on or off) and every batch size, jTmjp with from_diag=to_diag=diag_backprop=True costs at least as much as vjp and at most twice as much, wrt the input and wrt the weights. In forward mode, where the layers have one, jmjTp with the same flags costs at most twice as much as jvp. With diag_backprop=False the diagonal wrt the weights of a Sequential costs in each Linear layer but the first at least (number of its inputs) times what vjp costs there, so that no constant factor is enough: for two Linear layers of width n it is more than c times the work of vjp, and of diag_backprop, as soon as n >= 10c. L2Norm goes through its full Jacobian even in vjp: to build it costs at least 3n times the size of the input with n entries, and the product another n times.",
"all networks, all sizes > 0, all batch sizes > 0, all factors c",
"Timings depend on the machine and show a few sizes; an order of complexity is about all sizes.",
["nnj/linear.py:Linear.jTmjp", "nnj/linear.py:Linear.vjp", "nnj/linear.py:Linear.jmjTp", "nnj/linear.py:Linear.jvp", "nnj/conv2d.py:Conv2d.jTmjp", "nnj/conv2d.py:Conv2d.vjp", "nnj/sequential.py:Sequential.jTmjp", "nnj/sequential.py:Sequential.vjp", "nnj/l2norm.py:L2Norm.jacobian", "nnj/maxpool2d.py:MaxPool2d.jTmjp", "nnj/upsample.py:Upsample.jTmjp", "README.md"])
add("C82","Rounding errors of vjp are tiny changes of the weights",
"Let numbers be rounded, with relative errors of at most u in each sum and product, and let multiplication by 1 be exact. For a network of Linear layers (at most m outputs each), ReLU, Flatten, Reshape and nested Sequentials, vjp wrt the input after the forward pass (val given, or None) returns for each sample exactly what vjp returns in exact arithmetic from the same feature maps (those of the rounded forward pass, which decide which ReLUs are active) with weights that differ from the actual ones by relative errors of at most (1+u)^(m+1)-1 each. With the same changed weights the exact vjp wrt the weights is the computed one up to a relative error of at most u in each entry. The bounds do not depend on the depth. For one Linear layer the error of each entry is at most ((1+u)^(o+1)-1) times the same product of absolute values.",
"all such networks, parameters without sharing, batches, vectors, all number types satisfying the standard model of rounding",
"Tests compare with a tolerance at a few points; they cannot show that errors stay at the level of one layer however deep the network is.",
["nnj/linear.py:Linear.vjp", "nnj/relu.py:ReLU.jacobian", "nnj/abstract_diagonal_jacobian.py:AbstractDiagonalJacobian.vjp", "nnj/sequential.py:Sequential.vjp", "nnj/flatten.py:Flatten.vjp", "nnj/reshape.py:Reshape.vjp"])
add("C83","Diagonal metrics are computed with small relative errors, vectors are not",
"Let numbers be rounded, with relative errors of at most u in each sum and product, and let 1 stand for 1. For a network of Linear, ReLU, Flatten, Reshape and nested Sequentials, jTmjp with from_diag=to_diag=diag_backprop=True and a diagonal metric with entries >= 0 (or None) returns, wrt the input and wrt the weights, in every entry a number whose relative error is at most (1+u)^K-1, compared with the exact result from the same feature maps: nothing cancels. K is the number of roundings on the way back: outputs + 2 for each Linear layer and 2 for each ReLU. For vjp no such bound holds in any precision: with rounding to nearest to t+1 binary digits, for every t, there is a Linear layer with three outputs for which the computed vjp is 0 and the exact one positive.",
"all such networks, parameters, batches, metrics with entries >= 0, all number types satisfying the standard model of rounding; all precisions t for the counterexample",
"Tests compare with absolute tolerances; whether small entries are right in their leading digits shows only in a bound relative to each entry.",
["nnj/linear.py:Linear.jTmjp", "nnj/linear.py:Linear.vjp", "nnj/abstract_diagonal_jacobian.py:AbstractDiagonalJacobian.jTmjp", "nnj/relu.py:ReLU.jacobian", "nnj/sequential.py:Sequential.jTmjp", "nnj/flatten.py:Flatten.jTmjp", "nnj/reshape.py:Reshape.jTmjp"])
add("C84","The rows of mjp and of Jacobians are vjps and the columns of jmp are jvps, bit for bit, in any arithmetic",
"For networks of Linear, ReLU, Flatten, Reshape and nested Sequentials, with no assumption at all on sums, products and comparisons of numbers (rounding, infinities and NaN included): row i of mjp(x, val, A) is vjp(x, val, A[:, i]), entry for entry the same number, wrt the input and wrt the weights, with val=None and with val given. Likewise column j of jmp(x, val, A) is jvp(x, val, A[:, :, j]), wrt the input and wrt the weights, and the two calls leave the same state. So the rows of the Jacobian of a Sequential are its vjps with the unit vectors, and the bound of C82 holds for every row of mjp: for each sample and row the computed numbers are the exact ones for weights changed by a relative error of at most (1+u)^(m+1)-1. The Jacobian of a Linear layer by itself is not computed like this: it is a copy of the weights. If a weight W[j, c] is infinite, the other entries of column c of Linear.jacobian are the weights, but those of the Jacobian of Sequential(Linear) are NaN.",
"all such networks, parameters, batches, matrices, rows and number types; all Linear layers with an infinite weight",
"Tests use a few float32 networks and compare with tolerances; bit equality in every arithmetic and the behaviour with infinite weights are out of their reach.",
["nnj/linear.py:Linear.mjp", "nnj/linear.py:Linear.vjp", "nnj/linear.py:Linear.jacobian", "nnj/abstract_diagonal_jacobian.py:AbstractDiagonalJacobian.mjp", "nnj/sequential.py:Sequential.mjp", "nnj/sequential.py:Sequential.vjp", "nnj/sequential.py:Sequential.jacobian", "nnj/flatten.py:Flatten.mjp", "nnj/reshape.py:Reshape.mjp", "nnj/linear.py:Linear.jmp", "nnj/linear.py:Linear.jvp", "nnj/abstract_diagonal_jacobian.py:AbstractDiagonalJacobian.jmp", "nnj/sequential.py:Sequential.jmp", "nnj/sequential.py:Sequential.jvp"])
add("C85","Samples in a batch do not interact in any arithmetic",
"For networks of Linear, ReLU, Flatten, Reshape and nested Sequentials, with no assumption at all on sums, products and comparisons of numbers (rounding, infinities and NaN included): if sample b of one batch and sample b' of another have the same entries, then forward gives the same entries for them, whatever the other samples, the sizes of the two batches, the places b and b', and earlier calls. The same holds for jvp wrt the input with vectors that agree at these samples, for every column of jmp wrt the input, and, if the same hooks are registered, for vjp wrt the input and every row of mjp wrt the input, although these read feature maps kept for the whole batch. So a sample with NaN or overflow does not spoil the others.",
"all such networks, parameters, pairs of batches, samples, vectors, matrices and number types",
"C16 is about real numbers; tests compare float32 results with tolerances on a few batches without NaN.",
["nnj/linear.py:Linear.jvp", "nnj/linear.py:Linear.jmp", "nnj/abstract_diagonal_jacobian.py:AbstractDiagonalJacobian.jvp", "nnj/abstract_diagonal_jacobian.py:AbstractDiagonalJacobian.jmp", "nnj/relu.py:ReLU.jacobian", "nnj/sequential.py:Sequential.forward", "nnj/sequential.py:Sequential.jvp", "nnj/sequential.py:Sequential.jmp", "nnj/sequential.py:Sequential.vjp", "nnj/sequential.py:Sequential.mjp", "nnj/linear.py:Linear.vjp", "nnj/flatten.py:Flatten.jvp", "nnj/reshape.py:Reshape.jvp"])
with open('/verif/properties.jsonl','w') as f:
    for p in P: f.write(json.dumps(p)+"\n")
print(len(P))
