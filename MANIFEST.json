{
 "claims": [
  {
   "property": "C01",
   "status": "proved",
   "theorems": [
    "NNJ.Props.C01_jacobian_input",
    "NNJ.Props.C01_forward"
   ],
   "note": "for every nesting of Sequential/SkipConnection around Linear, elementwise, Flatten, Reshape, L2Norm, Conv2d (stride 1, dilation 1, groups 1, padding < kernel), Upsample (integer factor) and MaxPool2d (windows that do not overlap)"
  },
  {
   "property": "C02",
   "status": "proved",
   "theorems": [
    "NNJ.Props.C02_jacobian_weight",
    "NNJ.Props.C02_forward"
   ],
   "note": "for every nesting of Sequential/SkipConnection around Linear, elementwise, Flatten, Reshape, L2Norm, Conv2d (stride 1, dilation 1, groups 1, padding < kernel), Upsample (integer factor) and MaxPool2d (windows that do not overlap)"
  },
  {
   "property": "C03",
   "status": "proved",
   "theorems": [
    "NNJ.Props.C03_vjp_input",
    "NNJ.Props.C03_vjp_weight"
   ],
   "note": "for every nesting of Sequential/SkipConnection around Linear, elementwise, Flatten, Reshape, L2Norm, Conv2d (stride 1, dilation 1, groups 1, padding < kernel), Upsample (integer factor) and MaxPool2d (windows that do not overlap)"
  },
  {
   "property": "C04",
   "status": "proved",
   "theorems": [
    "NNJ.Props.C04_mjp_input",
    "NNJ.Props.C04_mjp_weight",
    "NNJ.Props.C04_mjp_rows_input",
    "NNJ.Props.C04_mjp_rows_weight"
   ],
   "note": "for every nesting of Sequential/SkipConnection around Linear, elementwise, Flatten, Reshape, L2Norm, Conv2d (stride 1, dilation 1, groups 1, padding < kernel), Upsample (integer factor) and MaxPool2d (windows that do not overlap)"
  },
  {
   "property": "C05",
   "status": "proved",
   "theorems": [
    "NNJ.Props.C05_jvp_input",
    "NNJ.Props.C05_jvp_weight"
   ],
   "note": "`FwdI` and `FwdW` list the layers with forward-mode support. The Jacobian is that of C01/C02, so a factor wrt the weights is read in the order of get_weight."
  },
  {
   "property": "C06",
   "status": "proved",
   "theorems": [
    "NNJ.Props.C06_jmp_input",
    "NNJ.Props.C06_jmp_weight"
   ],
   "note": "Same networks as C05, with a matrix in place of the vector."
  },
  {
   "property": "C07",
   "status": "proved",
   "theorems": [
    "NNJ.Props.C07_jTmjp_input",
    "NNJ.Props.C07_to_diag",
    "NNJ.Props.C07_from_diag"
   ],
   "note": "for every nesting of Sequential/SkipConnection around Linear, elementwise, Flatten, Reshape, L2Norm, Conv2d (stride 1, dilation 1, groups 1, padding < kernel), Upsample (integer factor) and MaxPool2d (windows that do not overlap)"
  },
  {
   "property": "C08",
   "status": "proved",
   "theorems": [
    "NNJ.Props.C08_jTmjp_weight_diag",
    "NNJ.Props.C08_jTmjp_weight_blocks"
   ],
   "note": "for every nesting of Sequential/SkipConnection around Linear, elementwise, Flatten, Reshape, L2Norm, Conv2d (stride 1, dilation 1, groups 1, padding < kernel), Upsample (integer factor) and MaxPool2d (windows that do not overlap)"
  },
  {
   "property": "C09",
   "status": "proved",
   "theorems": [
    "NNJ.Props.C09_jmjTp_input"
   ],
   "note": "All four combinations of from_diag and to_diag in one statement; diag_backprop=False."
  },
  {
   "property": "C10",
   "status": "proved",
   "theorems": [
    "NNJ.Props.C10_jmjTp_weight",
    "NNJ.Props.C10_jmjTp_weight_diag",
    "NNJ.Props.C10_jmjTp_weight_list"
   ],
   "note": "The mask in C10_jmjTp_weight says exactly which entries of a full matrix are used; diag_backprop=False."
  },
  {
   "property": "C11",
   "status": "proved",
   "theorems": [
    "NNJ.Props.C11_jTmjp_input",
    "NNJ.Props.C11_jTmjp_weight",
    "NNJ.Props.C11_jmjTp_input",
    "NNJ.Props.C11_jmjTp_weight",
    "NNJ.Props.C11_layer_matrix",
    "NNJ.Props.C11_exact",
    "NNJ.Props.C11_exact_weight",
    "NNJ.Props.C11_exact_layer",
    "NNJ.Props.C11_exact_all_but_one",
    "NNJ.Props.C11_exact_last_weights",
    "NNJ.Props.C11_not_exact"
   ],
   "note": "for every nesting of Sequential/SkipConnection around Linear, elementwise, Flatten, Reshape, L2Norm, Conv2d (stride 1, dilation 1, groups 1, padding < kernel), Upsample (integer factor) and MaxPool2d (windows that do not overlap)"
  },
  {
   "property": "C12",
   "status": "proved",
   "theorems": [
    "NNJ.Props.C12_jTmjp_eq",
    "NNJ.Props.C12_jTmjp_input",
    "NNJ.Props.C12_jTmjp_weight_diag",
    "NNJ.Props.C12_jTmjp_weight_blocks",
    "NNJ.Props.C12_mjp_jmp",
    "NNJ.Props.C12_jmjTp_input",
    "NNJ.Props.C12_jmjTp_weight",
    "NNJ.Props.C12_flatten_raises",
    "NNJ.Props.C12_l2norm_raises",
    "NNJ.Props.C12_conv_raises",
    "NNJ.Props.C12_skip_jmjTp_raises",
    "NNJ.Props.C12_skip_jTmjp_spatial",
    "NNJ.Props.C12_seq_jmjTp_spatial",
    "NNJ.Props.C12_seq_jmjTp_flatten"
   ],
   "note": "for every nesting of Sequential/SkipConnection around Linear, elementwise, Flatten, Reshape, L2Norm, Conv2d (stride 1, dilation 1, groups 1, padding < kernel), Upsample (integer factor) and MaxPool2d (windows that do not overlap)"
  },
  {
   "property": "C13",
   "status": "proved",
   "theorems": [
    "NNJ.Props.C13_none_iff",
    "NNJ.Props.C13_input_not_none",
    "NNJ.Props.C13_columns",
    "NNJ.Props.C13_forward_columns",
    "NNJ.Props.C13_backward_none",
    "NNJ.Props.C13_forward_none"
   ],
   "note": "for every nesting of Sequential/SkipConnection around Linear, elementwise, Flatten, Reshape, L2Norm, Conv2d (stride 1, dilation 1, groups 1, padding < kernel), Upsample (integer factor) and MaxPool2d (windows that do not overlap)"
  },
  {
   "property": "C14",
   "status": "proved",
   "theorems": [
    "NNJ.Props.C14_adjoint_input",
    "NNJ.Props.C14_adjoint_weight"
   ],
   "note": "Proved from the programs of jvp and vjp, for the networks that have both."
  },
  {
   "property": "C15",
   "status": "proved",
   "theorems": [
    "NNJ.Props.C15_jTmjp_input",
    "NNJ.Props.C15_jTmjp_input_diag",
    "NNJ.Props.C15_jTmjp_weight_diag",
    "NNJ.Props.C15_jTmjp_weight_blocks",
    "NNJ.Props.C15_jmjTp_input",
    "NNJ.Props.C15_jmjTp_input_diag",
    "NNJ.Props.C15_jmjTp_weight",
    "NNJ.Props.C15_jmjTp_weight_diag"
   ],
   "note": "for every nesting of Sequential/SkipConnection around Linear, elementwise, Flatten, Reshape, L2Norm, Conv2d (stride 1, dilation 1, groups 1, padding < kernel), Upsample (integer factor) and MaxPool2d (windows that do not overlap)"
  },
  {
   "property": "C16",
   "status": "proved",
   "theorems": [
    "NNJ.Props.C16_forward",
    "NNJ.Props.C16_jacobian_input",
    "NNJ.Props.C16_jacobian_weight",
    "NNJ.Props.C16_vjp_input",
    "NNJ.Props.C16_vjp_weight",
    "NNJ.Props.C16_mjp_input",
    "NNJ.Props.C16_mjp_weight",
    "NNJ.Props.C16_jvp_input",
    "NNJ.Props.C16_jvp_weight",
    "NNJ.Props.C16_jmp_input",
    "NNJ.Props.C16_jmp_weight",
    "NNJ.Props.C16_jTmjp_input",
    "NNJ.Props.C16_jTmjp_weight_diag",
    "NNJ.Props.C16_jTmjp_weight_blocks",
    "NNJ.Props.C16_jmjTp_input",
    "NNJ.Props.C16_jmjTp_weight",
    "NNJ.Props.C16_diag_backprop"
   ],
   "note": "for every nesting of Sequential/SkipConnection around Linear, elementwise, Flatten, Reshape, L2Norm, Conv2d (stride 1, dilation 1, groups 1, padding < kernel), Upsample (integer factor) and MaxPool2d (windows that do not overlap)"
  },
  {
   "property": "C17",
   "status": "proved",
   "theorems": [
    "NNJ.Props.C17_ok",
    "NNJ.Props.C17_history"
   ],
   "note": "for every nesting of Sequential/SkipConnection around Linear, elementwise, Flatten, Reshape, L2Norm, Conv2d (stride 1, dilation 1, groups 1, padding < kernel), Upsample (integer factor) and MaxPool2d (windows that do not overlap)"
  },
  {
   "property": "C18",
   "status": "proved",
   "theorems": [
    "NNJ.Props.C18_val"
   ],
   "note": "for every nesting of Sequential/SkipConnection around Linear, elementwise, Flatten, Reshape, L2Norm, Conv2d (stride 1, dilation 1, groups 1, padding < kernel), Upsample (integer factor) and MaxPool2d (windows that do not overlap)"
  },
  {
   "property": "C19",
   "status": "proved",
   "theorems": [
    "NNJ.Props.C19_ignores_x",
    "NNJ.Props.C19_last_forward",
    "NNJ.Props.C19_bad_history",
    "NNJ.Props.C19_bad_history_jvp"
   ],
   "note": "The first two theorems say what the code does in every state; the other two are concrete histories in which the result is not the product at the given x."
  },
  {
   "property": "C20",
   "status": "proved",
   "theorems": [
    "NNJ.Props.C20_set_get",
    "NNJ.Props.C20_get_set",
    "NNJ.Props.C20_short",
    "NNJ.Props.C20_none"
   ],
   "note": "Parameters without sharing (`paramIds.Nodup`); tensors are values in this model."
  },
  {
   "property": "C21",
   "status": "proved",
   "theorems": [
    "NNJ.Props.C21_frame",
    "NNJ.Props.C21_enclosing"
   ],
   "note": "Parameters without sharing (`paramIds.Nodup`). C21_enclosing: the enclosing network sees its weight vector overwritten at the offset of the submodule and nowhere else."
  },
  {
   "property": "C22",
   "status": "proved",
   "theorems": [
    "NNJ.Props.C22_forward",
    "NNJ.Props.C22_gradient_input",
    "NNJ.Props.C22_gradient_weight",
    "NNJ.Props.C22_no_parameters"
   ],
   "note": "sum and average; the model is not itself inside a Sequential"
  },
  {
   "property": "C23",
   "status": "proved",
   "theorems": [
    "NNJ.Props.C23_forward",
    "NNJ.Props.C23_gradient_input",
    "NNJ.Props.C23_gradient_weight",
    "NNJ.Props.C25_binary",
    "NNJ.Props.C25_binary_full"
   ],
   "note": "as C22"
  },
  {
   "property": "C24",
   "status": "proved",
   "theorems": [
    "NNJ.Props.C24_forward",
    "NNJ.Props.C24_gradient_input",
    "NNJ.Props.C24_gradient_weight",
    "NNJ.Props.C24_gradient_only",
    "NNJ.Props.C24_gradient_wrong",
    "NNJ.Props.C25_bernoulli",
    "NNJ.Props.C25_bernoulli_full"
   ],
   "note": "as C22; the converse needs a Jacobian with independent rows"
  },
  {
   "property": "C25",
   "status": "proved",
   "theorems": [
    "NNJ.Props.C25_gaussian",
    "NNJ.Props.C25_binary",
    "NNJ.Props.C25_bernoulli",
    "NNJ.Props.C25_gaussian_full",
    "NNJ.Props.C25_binary_full",
    "NNJ.Props.C25_bernoulli_full",
    "NNJ.Props.C25_bernoulli_rows"
   ],
   "note": "exact propagation; LogBernoulli for outputs that are one class vector (otherwise it raises)"
  },
  {
   "property": "C26",
   "status": "proved",
   "theorems": [
    "NNJ.Props.C26_init",
    "NNJ.Props.C26_none",
    "NNJ.Props.C26_forward",
    "NNJ.Props.C26_gradient",
    "NNJ.Props.C26_ggn",
    "NNJ.Props.C26_ggn_bernoulli"
   ],
   "note": "C26_forward/gradient/ggn compare the calls on the single samples with the calls on the batch for sum and average (ggn: exact propagation)"
  },
  {
   "property": "C27",
   "status": "proved",
   "theorems": [
    "NNJ.Props.C27_converts",
    "NNJ.Props.C27_forward",
    "NNJ.Props.C27_same",
    "NNJ.Props.C27_flatten",
    "NNJ.Props.C27_flatten_empty",
    "NNJ.Props.C27_flattenAt",
    "NNJ.Props.C27_flattenAt_merges",
    "NNJ.Props.C27_flattenAt_range",
    "NNJ.Props.C27_upsample",
    "NNJ.Props.C27_nested",
    "NNJ.Props.C27_softplus",
    "NNJ.Props.C27_conv_padding",
    "NNJ.Props.C27_net",
    "NNJ.Props.C27_jacobian"
   ],
   "note": "C27_same/C27_forward: every list of layers (torch.nn.Flatten: C27_flatten, same value unless a tensor is empty; C27_flatten_empty); C27_net/C27_jacobian: well-shaped lists of layers with default settings (Typed)"
  },
  {
   "property": "C28",
   "status": "proved",
   "theorems": [
    "NNJ.Props.C28_blockwise",
    "NNJ.Props.C28_raises",
    "NNJ.Props.C28_inverse_iff",
    "NNJ.Props.C28_factor",
    "NNJ.Props.C28_wrong"
   ],
   "note": "torch.cholesky_inverse is modelled by forward substitution on the lower triangle (exact arithmetic)"
  },
  {
   "property": "C29",
   "status": "proved",
   "theorems": [
    "NNJ.Props.C29_jvp",
    "NNJ.Props.C29_jmp",
    "NNJ.Props.C29_vjp",
    "NNJ.Props.C29_mjp",
    "NNJ.Props.C29_jmjTp",
    "NNJ.Props.C29_jTmjp_full",
    "NNJ.Props.C29_jTmjp_diag_raises",
    "NNJ.Props.C29_jTmjp_diag_value",
    "NNJ.Props.C29_jTmjp_symm",
    "NNJ.Props.C29_jTmjp_diag_wrong",
    "NNJ.Props.C29_diag_backprop"
   ],
   "note": "for an arbitrary jacobian method"
  },
  {
   "property": "C30",
   "status": "proved",
   "theorems": [
    "NNJ.Props.C30_jvp",
    "NNJ.Props.C30_jmp",
    "NNJ.Props.C30_vjp",
    "NNJ.Props.C30_mjp",
    "NNJ.Props.C30_none",
    "NNJ.Props.C30_jmjTp",
    "NNJ.Props.C30_jTmjp"
   ],
   "note": "for an arbitrary jacobian method"
  },
  {
   "property": "C31",
   "status": "proved",
   "theorems": [
    "NNJ.Props.C31_products",
    "NNJ.Props.C31_distance",
    "NNJ.Props.C31_exact",
    "NNJ.Props.C31_never"
   ],
   "note": "|x| + eps = 0 is excluded from the derivative statements"
  },
  {
   "property": "C32",
   "status": "proved",
   "theorems": [
    "NNJ.Props.C32_selection",
    "NNJ.Props.C32_derivative",
    "NNJ.Props.C32_disjoint",
    "NNJ.Props.C32_stride",
    "NNJ.Props.C32_overlap",
    "NNJ.Props.C32_iff"
   ],
   "note": "C32_iff: vjp is right for every image exactly when no two windows overlap"
  },
  {
   "property": "C33",
   "status": "proved",
   "theorems": [
    "NNJ.Props.C33_stride_guard",
    "NNJ.Props.C33_stride_guard_exact",
    "NNJ.Props.C33_vmap_loop"
   ],
   "note": "every configuration and argument; batches with at least one sample, val (if given) without empty dimensions"
  },
  {
   "property": "C34",
   "status": "proved",
   "theorems": [
    "NNJ.Props.C34_forward",
    "NNJ.Props.C34_input",
    "NNJ.Props.C34_weight",
    "NNJ.Props.C34_raises"
   ],
   "note": "dilation 1 in the derivative statements"
  },
  {
   "property": "C35",
   "status": "proved",
   "theorems": [
    "NNJ.Props.C35_conv_jvp",
    "NNJ.Props.C35_conv_jmp",
    "NNJ.Props.C35_conv_jmjTp_val",
    "NNJ.Props.C35_conv_jmjTp",
    "NNJ.Props.C35_upsample_jvp",
    "NNJ.Props.C35_upsample_jmp",
    "NNJ.Props.C35_upsample_jmjTp",
    "NNJ.Props.C35_maxpool_jvp",
    "NNJ.Props.C35_maxpool_jmjTp",
    "NNJ.Props.C35_sequential_jvp",
    "NNJ.Props.C35_sequential_jmjTp"
   ],
   "note": "for every scalar type, argument and state"
  },
  {
   "property": "C36",
   "status": "proved",
   "theorems": [
    "NNJ.Props.C36_no_params",
    "NNJ.Props.C36_jacobian_val",
    "NNJ.Props.C36_jacobian_val_weight",
    "NNJ.Props.C36_jacobian_val_raises",
    "NNJ.Props.C36_jacobian_val_wrong"
   ],
   "note": "C36_jacobian_val_weight: inner networks without Conv2d/Upsample/MaxPool2d"
  },
  {
   "property": "C37",
   "status": "proved",
   "theorems": [
    "NNJ.Props.C37_parameters",
    "NNJ.Props.C37_getWeight",
    "NNJ.Props.C37_calls",
    "NNJ.Props.C37_blocks",
    "NNJ.Props.C37_three"
   ],
   "note": "every two networks with the same layers after removing the nesting of Sequentials (also inside SkipConnections), not only the three groupings; C37_calls: every product with its matrix/vector given"
  },
  {
   "property": "C38",
   "status": "proved",
   "theorems": [
    "NNJ.Props.C38_feature_maps",
    "NNJ.Props.C38_too_many",
    "NNJ.Props.C38_vjp_wrong",
    "NNJ.Props.C38_get_weight"
   ],
   "note": "C38_feature_maps / C38_too_many: layers whose forward keeps no state; C38_vjp_wrong is the concrete wrong result"
  },
  {
   "property": "C39",
   "status": "proved",
   "theorems": [
    "NNJ.Props.C39_truncExp",
    "NNJ.Props.C39_softplus",
    "NNJ.Props.C39_relu"
   ],
   "note": "for the layer objects, every real input"
  },
  {
   "property": "C40",
   "status": "proved",
   "theorems": [
    "NNJ.Props.C40_init",
    "NNJ.Props.C40_forward_mode",
    "NNJ.Props.C40_never_returns",
    "NNJ.Props.C40_attribute_error",
    "NNJ.Props.C40_keeps",
    "NNJ.Props.C40_exact"
   ],
   "note": "C40_forward_mode / C40_never_returns: every chain of layers and every argument; C40_exact: the same conditions on the layers as in C01"
  },
  {
   "property": "C41",
   "status": "proved",
   "theorems": [
    "NNJ.Props.C41_sequential_jTmjp",
    "NNJ.Props.C41_readme",
    "NNJ.Props.C41_sequential_jmjTp",
    "NNJ.Props.C41_skip_jTmjp",
    "NNJ.Props.C41_skip_jmjTp"
   ],
   "note": "for every list of layers, argument and state"
  },
  {
   "property": "C42",
   "status": "proved",
   "theorems": [
    "NNJ.Props.C42_build"
   ],
   "note": "random initial values are not modelled: parameters are taken from the state"
  },
  {
   "property": "C43",
   "status": "proved",
   "theorems": [
    "NNJ.Props.C43_forward",
    "NNJ.Props.C43_vjp_iff",
    "NNJ.Props.C43_jacobian_iff",
    "NNJ.Props.C43_vjp_value",
    "NNJ.Props.C43_small"
   ],
   "note": "exact rational factor (torch computes 1/f in floating point)"
  },
  {
   "property": "C44",
   "status": "proved",
   "theorems": [
    "NNJ.Props.C44_forward",
    "NNJ.Props.C44_input",
    "NNJ.Props.C44_weight_raises"
   ],
   "note": "not stated: a dilation >= 2 that has no effect (one-pixel image and kernel)"
  },
  {
   "property": "C45",
   "status": "proved",
   "theorems": [
    "NNJ.Props.C45_gaussian",
    "NNJ.Props.C45_binary",
    "NNJ.Props.C45_no_parameters",
    "NNJ.Props.C45_exact",
    "NNJ.Props.C45_not_exact",
    "NNJ.Props.C45_full_raises",
    "NNJ.Props.C45_bernoulli_raises",
    "NNJ.Props.C45_layer",
    "NNJ.Props.C45_l2norm",
    "NNJ.Props.C45_l2norm_bernoulli"
   ],
   "note": "C45_gaussian/binary: Q and QW are the products of squared layer Jacobians of C11 (C11_layer_matrix)"
  },
  {
   "property": "C46",
   "status": "proved",
   "theorems": [
    "NNJ.Props.C46_forward",
    "NNJ.Props.C46_reverse",
    "NNJ.Props.C46_append",
    "NNJ.Props.C46_grows",
    "NNJ.Props.C46_unbounded",
    "NNJ.Props.C46_fresh_raises",
    "NNJ.Props.C46_fresh_wrong"
   ],
   "note": "The wrong product is a concrete witness: Sequential(Sinusoidal()) at pi. jmjTp is not among the reverse-mode products here (it leaves this Sequential's own list alone but may append to lists inside SkipConnections)."
  },
  {
   "property": "C47",
   "status": "proved",
   "theorems": [
    "NNJ.Props.C47_ggn",
    "NNJ.Props.C47_no_params",
    "NNJ.Props.C47_mse"
   ],
   "note": "C47_mse: smoothness of the network is required only for the statement that D is the derivative (as in C02). The BackPACK benchmark itself is not modelled; the theorem is about the mathematical Gauss-Newton diagonal of the loss."
  },
  {
   "property": "C48",
   "status": "proved",
   "theorems": [
    "NNJ.Props.C48_sequential",
    "NNJ.Props.C48_two",
    "NNJ.Props.C48_skip"
   ],
   "note": "LayerJacobians is an inductive predicate about calls (forward and jacobian) on the layers."
  },
  {
   "property": "C49",
   "status": "proved",
   "theorems": [
    "NNJ.Props.C49_train",
    "NNJ.Props.C49_std",
    "NNJ.Props.C49_sample",
    "NNJ.Props.C49_sample_forgets",
    "NNJ.Props.C49_readme",
    "NNJ.Props.C49_readme_ggn",
    "NNJ.Props.C49_unet"
   ],
   "note": "Finding: the notebook's samples omit the mean; the README's GGN call raises AssertionError. torch.randn is an arbitrary vector; plots and statistics are not modelled. C49_readme is for outputs that are vectors."
  },
  {
   "property": "C50",
   "status": "proved",
   "theorems": [
    "NNJ.Props.C50_target",
    "NNJ.Props.C50_init"
   ],
   "note": "The checks come after the forward pass of the model, so the caches are already renewed when an exception is raised."
  },
  {
   "property": "C51",
   "status": "proved",
   "theorems": [
    "NNJ.Props.C51_never",
    "NNJ.Props.C51_sequential",
    "NNJ.Props.C51_skip",
    "NNJ.Props.C51_leaf",
    "NNJ.Props.C51_silent"
   ],
   "note": "A defect of the code (inconsistent validation); the theorems state what it does."
  },
  {
   "property": "C52",
   "status": "proved",
   "theorems": [
    "NNJ.Props.C52_slice",
    "NNJ.Props.C52_others",
    "NNJ.Props.C52_results",
    "NNJ.Props.C52_val",
    "NNJ.Props.C52_stale"
   ],
   "note": "C52_stale is a defect of the code: the backward products trust caches that another owner of the layer may have overwritten."
  },
  {
   "property": "C53",
   "status": "proved",
   "theorems": [
    "NNJ.Props.C53_unedited",
    "NNJ.Props.C53_forward",
    "NNJ.Props.C53_forward_mode",
    "NNJ.Props.C53_backward",
    "NNJ.Props.C53_jacobian",
    "NNJ.Props.C53_weight",
    "NNJ.Props.C53_parameters",
    "NNJ.Props.C53_get_weight",
    "NNJ.Props.C53_setitem",
    "NNJ.Props.C53_wrong"
   ],
   "note": "C53_backward, C53_jacobian, C53_wrong describe a defect of the code: derivatives of the model without the appended layer, returned silently."
  },
  {
   "property": "C54",
   "status": "proved",
   "theorems": [
    "NNJ.Props.C54_forward_mode",
    "NNJ.Props.C54_val",
    "NNJ.Props.C54_backward",
    "NNJ.Props.C54_leak",
    "NNJ.Props.C54_original"
   ],
   "note": "C54_backward and C54_leak describe a defect of the code: hooks are closures over the original Sequential."
  },
  {
   "property": "C55",
   "status": "proved",
   "theorems": [
    "NNJ.Props.C55_refines",
    "NNJ.Props.C55_linked",
    "NNJ.Props.C55_live",
    "NNJ.Props.C55_write",
    "NNJ.Props.C55_shared",
    "NNJ.Props.C55_get",
    "NNJ.Props.C55_convert",
    "NNJ.Props.C55_witness"
   ],
   "note": "torch.nn.utils.vector_to_parameters and torch.cat are modelled with their storages; all views are contiguous."
  },
  {
   "property": "C56",
   "status": "proved",
   "theorems": [
    "NNJ.Props.C56_vjp",
    "NNJ.Props.C56_mjp",
    "NNJ.Props.C56_jacobian",
    "NNJ.Props.C56_softplus",
    "NNJ.Props.C56_l2norm",
    "NNJ.Props.C56_reference_act"
   ],
   "note": "autograd is specified by the backward formulas of the torch functions used in the forward passes (Spec/Autograd), swept in reverse; C56_reference_act shows that they are derivatives where these exist. C56_softplus and C56_l2norm say exactly where agreement fails."
  },
  {
   "property": "C57",
   "status": "proved",
   "theorems": [
    "NNJ.Props.C57_forward",
    "NNJ.Props.C57_raises",
    "NNJ.Props.C57_malformed",
    "NNJ.Props.C57_empty",
    "NNJ.Props.C57_flatten",
    "NNJ.Props.C57_products"
   ],
   "note": "networks may contain Reshape layers with a size left open, so all network properties cover them."
  },
  {
   "property": "C58",
   "status": "proved",
   "theorems": [
    "NNJ.Props.C58_default",
    "NNJ.Props.C58_mode",
    "NNJ.Props.C58_bilinear_forward",
    "NNJ.Props.C58_bilinear_vjp_iff",
    "NNJ.Props.C58_bilinear_jacobian_iff",
    "NNJ.Props.C58_size_forward",
    "NNJ.Props.C58_size_raises",
    "NNJ.Props.C58_size_type",
    "NNJ.Props.C58_size_and_scale"
   ],
   "note": "the property 'the products are those of the derivative of forward' is false for these options; C58 says exactly when it holds. Other modes than nearest and bilinear are covered by C58_mode through an arbitrary forward pass."
  },
  {
   "property": "C59",
   "status": "proved",
   "theorems": [
    "NNJ.Props.C59_layer",
    "NNJ.Props.C59_val",
    "NNJ.Props.C59_between"
   ],
   "note": "Act.custom is a constructor of the activations that occur in Net, so every theorem quantified over networks includes user-defined elementwise layers. For user-defined layers that are not elementwise see C29."
  },
  {
   "property": "C60",
   "status": "proved",
   "theorems": [
    "NNJ.Props.C60_rows",
    "NNJ.Props.C60_mismatch",
    "NNJ.Props.C60_width",
    "NNJ.Props.C60_strict",
    "NNJ.Props.C60_rank"
   ],
   "note": "The Jacobian is the one that jacobian(x, None) returns in the same state (by C01 the derivative)."
  },
  {
   "property": "C61",
   "status": "proved",
   "theorems": [
    "NNJ.Props.C61_input",
    "NNJ.Props.C61_backprop",
    "NNJ.Props.C61_val",
    "NNJ.Props.C61_conv"
   ],
   "note": "Layers given by `ILayer` and `ILayer.Exact` (what the layer must do on its own); the wiring hypotheses are those of `Net.Ok`."
  },
  {
   "property": "C62",
   "status": "proved",
   "theorems": [
    "NNJ.Props.C62_forward",
    "NNJ.Props.C62_products",
    "NNJ.Props.C62_jacobian",
    "NNJ.Props.C62_skip",
    "NNJ.Props.C62_skip_wrong"
   ],
   "note": "Memory model for the forward pass (`Model/Inplace`); the products read memory and write none, so they are those of the value model on what the references hold."
  },
  {
   "property": "C63",
   "status": "proved",
   "theorems": [
    "NNJ.Props.C63_init",
    "NNJ.Props.C63_stride",
    "NNJ.Props.C63_string",
    "NNJ.Props.C63_forward",
    "NNJ.Props.C63_products",
    "NNJ.Props.C63_refused",
    "NNJ.Props.C63_exact_iff",
    "NNJ.Props.C63_no_padding",
    "NNJ.Props.C63_positive"
   ],
   "note": "Finding: with padding_mode other than zeros the returned Jacobians are wrong."
  },
  {
   "property": "C64",
   "status": "proved",
   "theorems": [
    "NNJ.Props.C64_test",
    "NNJ.Props.C64_suite",
    "NNJ.Props.C64_nested_empty",
    "NNJ.Props.C64_detects_jvp_input",
    "NNJ.Props.C64_detects_jvp_weight",
    "NNJ.Props.C64_detects_vjp_input",
    "NNJ.Props.C64_detects_vjp_weight",
    "NNJ.Props.C64_detects_jmp_input",
    "NNJ.Props.C64_detects_jmp_weight",
    "NNJ.Props.C64_detects_mjp_input",
    "NNJ.Props.C64_detects_mjp_weight",
    "NNJ.Props.C64_detects_jmjTp_input",
    "NNJ.Props.C64_detects_jTmjp_input",
    "NNJ.Props.C64_detects_jmjTp_weight",
    "NNJ.Props.C64_detects_jmjTp_nested",
    "NNJ.Props.C64_detects_jTmjp_weight",
    "NNJ.Props.C64_blocks"
   ],
   "note": "Over the reals: with rounding a test can fail when the entries are large. Finding: the helper embed_block_diagonal fails on an empty list."
  },
  {
   "property": "C65",
   "status": "proved",
   "theorems": [
    "NNJ.Props.C65_input",
    "NNJ.Props.C65_weight",
    "NNJ.Props.C65_near",
    "NNJ.Props.C65_none",
    "NNJ.Props.C65_shared",
    "NNJ.Props.C65_suite",
    "NNJ.Props.C65_softplus",
    "NNJ.Props.C65_l2norm",
    "NNJ.Props.C65_l2norm_fails",
    "NNJ.Props.C65_detects_input",
    "NNJ.Props.C65_detects_weight"
   ],
   "note": "Over the reals. Autograd on networks is Net.backward (C56). Finding: the test wrt weights cannot be run on networks with shared parameters, and the L2Norm test passes only because the inputs are not small."
  },
  {
   "property": "C66",
   "status": "proved",
   "theorems": [
    "NNJ.Props.C66_forward",
    "NNJ.Props.C66_raises",
    "NNJ.Props.C66_one",
    "NNJ.Props.C66_many"
   ],
   "note": "Finding: the silent wrong shape for layers of width one comes from the broadcasting of torch.einsum."
  },
  {
   "property": "C67",
   "status": "proved",
   "theorems": [
    "NNJ.Props.C67_forward",
    "NNJ.Props.C67_input",
    "NNJ.Props.C67_weight",
    "NNJ.Props.C67_tied",
    "NNJ.Props.C67_state",
    "NNJ.Props.C67_build"
   ],
   "note": "Complements C38: sharing a layer object is harmless in forward mode. jvp/jmp need the layers that implement them (no Conv2d, Upsample, MaxPool2d)."
  },
  {
   "property": "C68",
   "status": "proved",
   "theorems": [
    "NNJ.Props.C68_forward",
    "NNJ.Props.C68_input",
    "NNJ.Props.C68_seq",
    "NNJ.Props.C68_value",
    "NNJ.Props.C68_weight",
    "NNJ.Props.C68_seqWeight",
    "NNJ.Props.C68_linear"
   ],
   "note": "A finding: the library evaluates most networks on empty batches but cannot differentiate them. torch: reshape of an empty tensor with -1 and a 0 among the given sizes raises, t[0] raises."
  },
  {
   "property": "C69",
   "status": "proved",
   "theorems": [
    "NNJ.Props.C69_input",
    "NNJ.Props.C69_weight",
    "NNJ.Props.C69_pools",
    "NNJ.Props.C69_maxpool"
   ],
   "note": "A finding: MaxPool2d.jmp accepts only matrices with as many columns as it has inputs (nnj/maxpool2d.py:97). Completes C67, which treats only networks without Conv2d, Upsample and MaxPool2d, by the exact conditions."
  },
  {
   "property": "C70",
   "status": "proved",
   "theorems": [
    "NNJ.Props.C70_jvp",
    "NNJ.Props.C70_jmp",
    "NNJ.Props.C70_jmp_bias",
    "NNJ.Props.C70_vjp",
    "NNJ.Props.C70_mjp",
    "NNJ.Props.C70_width",
    "NNJ.Props.C70_jTmjp"
   ],
   "note": "A finding: no check of the width of the argument in vjp, mjp and jTmjp wrt weight, and reshapes in jmp that accept matrices for another number of samples. The analogue of C60 (vjp wrt input) for the weights."
  },
  {
   "property": "C71",
   "status": "proved",
   "theorems": [
    "NNJ.Props.C71_input",
    "NNJ.Props.C71_weight",
    "NNJ.Props.C71_input_raises",
    "NNJ.Props.C71_weight_raises",
    "NNJ.Props.C71_input_weight"
   ],
   "note": "C10, C11, C12, C15, C16 and C64 use the same weaker condition for jmjTp wrt weight."
  },
  {
   "property": "C72",
   "status": "proved",
   "theorems": [
    "NNJ.Props.C72_blocks",
    "NNJ.Props.C72_gaussian_weight",
    "NNJ.Props.C72_binary_weight",
    "NNJ.Props.C72_bernoulli_weight",
    "NNJ.Props.C72_layer",
    "NNJ.Props.C72_layer_bernoulli",
    "NNJ.Props.C72_gaussian_input",
    "NNJ.Props.C72_binary_input",
    "NNJ.Props.C72_bernoulli_input",
    "NNJ.Props.C72_tanh"
   ],
   "note": "Only metric_backprop='exact'; C45 says what 'approx' returns."
  },
  {
   "property": "C73",
   "status": "proved",
   "theorems": [
    "NNJ.Props.C73_binary",
    "NNJ.Props.C73_bernoulli",
    "NNJ.Props.C73_gaussian"
   ],
   "note": "LogBernoulli for outputs that are one class vector (ggn raises otherwise, C25). metric_shape='full' with respect to the weights only for a single layer (raises for containers, C25)."
  },
  {
   "property": "C74",
   "status": "proved",
   "theorems": [
    "NNJ.Props.C74_ascent",
    "NNJ.Props.C74_ascent_bernoulli",
    "NNJ.Props.C74_stationary",
    "NNJ.Props.C74_stationary_bernoulli",
    "NNJ.Props.C74_newton",
    "NNJ.Props.C74_two_layers"
   ],
   "note": "The Newton part needs a single layer because ggn(metric_shape='full', wrt='weight') raises for containers (C25)."
  },
  {
   "property": "C75",
   "status": "proved",
   "theorems": [
    "NNJ.Props.C75_same_shapes_and_exceptions",
    "NNJ.Props.C75_histories",
    "NNJ.Props.C75_returns_in_any_number_system",
    "NNJ.Props.C75_run_on_shapes",
    "NNJ.Props.C75_maxpool_depends_on_the_numbers"
   ],
   "note": "Transfers every theorem about when a method returns and with which shape from the reals to any number type; says nothing about the values in floating point."
  },
  {
   "property": "C76",
   "status": "proved",
   "theorems": [
    "NNJ.Props.C76_binary_gradient",
    "NNJ.Props.C76_bernoulli_gradient",
    "NNJ.Props.C76_binary_ggn",
    "NNJ.Props.C76_bernoulli_ggn",
    "NNJ.Props.C76_regression_gradient",
    "NNJ.Props.C76_step_destroys_the_class",
    "NNJ.Props.C76_network_gradient",
    "NNJ.Props.C76_step_destroys_the_network",
    "NNJ.Props.C76_sigmoid_does_not_overflow"
   ],
   "note": "A defect of the code: the theorems over the real numbers cannot see it. The laws are assumptions about the number type, shown to hold for one example type (Fl M); that IEEE formats satisfy them is not proved here. forward uses torch's stabilised logsumexp and is not covered."
  },
  {
   "property": "C77",
   "status": "proved",
   "theorems": [
    "NNJ.Props.C77_forward",
    "NNJ.Props.C77_jacobian_input",
    "NNJ.Props.C77_jacobian_weight",
    "NNJ.Props.C77_reverse_input",
    "NNJ.Props.C77_reverse_weight",
    "NNJ.Props.C77_forward_mode_input",
    "NNJ.Props.C77_forward_mode_weight",
    "NNJ.Props.C77_jTmjp_diag_raises"
   ],
   "note": "New layers are assumed to keep no state of their own besides their parameters. Forward-mode products have the same limits as for library networks (C05, C06, C10: FwdI, FwdW). Library layers inherit some of these products too (C29 states the defect for one layer)."
  },
  {
   "property": "C78",
   "status": "proved",
   "theorems": [
    "NNJ.Props.C78_forward_backward_stable",
    "NNJ.Props.C78_bound",
    "NNJ.Props.C78_no_parameters_exact",
    "NNJ.Props.C78_linear_error"
   ],
   "note": "The model sums from left to right; overflow and underflow are excluded (C76 is about overflow). The perturbed weights depend on the sample. Conv2d (each pixel has its own rounding errors), other activations, and the product methods are not covered. `Fl t` in the same file is rounding to nearest with t+1 binary digits and is shown to satisfy the assumptions."
  },
  {
   "property": "C79",
   "status": "proved",
   "theorems": [
    "NNJ.Props.C79_dtype_kept",
    "NNJ.Props.C79_default_is_safe",
    "NNJ.Props.C79_default_is_safe_chain",
    "NNJ.Props.C79_backward_errors",
    "NNJ.Props.C79_backward_returns",
    "NNJ.Props.C79_likelihood",
    "NNJ.Props.C79_mixed_forward",
    "NNJ.Props.C79_set_weight",
    "NNJ.Props.C79_get_weight",
    "NNJ.Props.C79_resize_backward",
    "NNJ.Props.C79_resize_training",
    "NNJ.Props.C79_conv_jacobian",
    "NNJ.Props.C79_loop_conv",
    "NNJ.Props.C79_loop_conv_net",
    "NNJ.Props.C79_default_jacobians"
   ],
   "note": "In a model of its own (Model/Dtype): tensors are their dtype and the lowest precision their numbers went through, every method is written again branch by branch. Torch's rules for mixed dtypes are trusted and listed there. Shapes are left out: the calls are taken to have the right shapes and a non-empty batch."
  },
  {
   "property": "C80",
   "status": "proved",
   "theorems": [
    "NNJ.Props.C80_backward",
    "NNJ.Props.C80_one_forward",
    "NNJ.Props.C80_jmjTp",
    "NNJ.Props.C80_skip_jmjTp",
    "NNJ.Props.C80_forward_mode",
    "NNJ.Props.C80_nested"
   ],
   "note": "\"Evaluates no layer\" is stated without counting: nothing observable changes if forward of every layer, and every method of a layer called without val, is replaced by an exception. C80_nested counts with an arbitrary counter that forward of the layer increases."
  },
  {
   "property": "C81",
   "status": "proved",
   "theorems": [
    "NNJ.Props.C81_same_order",
    "NNJ.Props.C81_forward",
    "NNJ.Props.C81_exact",
    "NNJ.Props.C81_gap",
    "NNJ.Props.C81_l2norm"
   ],
   "note": "In a model of its own (Model/Work): networks are their sizes and each method is its number of scalar operations, written line by line. What an operation of torch costs (einsum from left to right, convolutions without FFT) is trusted and listed there. val and the metric are given; groups = 1. For the exact diagonal only the Linear layers are counted, as a lower bound."
  },
  {
   "property": "C82",
   "status": "proved",
   "theorems": [
    "NNJ.Props.C82_vjp",
    "NNJ.Props.C82_vjp_weight",
    "NNJ.Props.C82_linear_error"
   ],
   "note": "Same assumptions on the arithmetic as C78 (sums from left to right, no overflow or underflow), and multiplication by 1 exact. `Bin t` in the same file, binary numbers with t+1 digits and rounding to nearest, satisfies them. SkipConnection is not covered: its sum adds a rounding error that is not a change of the weights. The exact vjp is the model's program over the reals, run in a state with the changed weights and the feature maps of the rounded run."
  },
  {
   "property": "C83",
   "status": "proved",
   "theorems": [
    "NNJ.Props.C83_diag",
    "NNJ.Props.C83_identity",
    "NNJ.Props.C83_vjp_cancels"
   ],
   "note": "Same assumptions on the arithmetic as C78 (sums from left to right, no overflow or underflow), and 1 represented. The exact result is the model's program over the reals in the state after the rounded forward pass, so errors of the forward pass are not included (C78 is about them)."
  },
  {
   "property": "C84",
   "status": "proved",
   "theorems": [
    "NNJ.Props.C84_rows",
    "NNJ.Props.C84_jacobian",
    "NNJ.Props.C84_mjp_errors",
    "NNJ.Props.C84_infinite_weight",
    "NNJ.Props.C84_columns",
    "NNJ.Props.C84_columns_weights"
   ],
   "note": "The model adds the terms of an einsum in the same order in mjp and vjp, and in jmp and jvp; torch may use different kernels for them, which can change the order and with it the last bits. The infinite weight theorem uses the numbers of C76 (reals up to a bound, two infinities, NaN) and the feature maps that forward leaves."
  },
  {
   "property": "C85",
   "status": "proved",
   "theorems": [
    "NNJ.Props.C85_forward",
    "NNJ.Props.C85_jvp",
    "NNJ.Props.C85_jmp",
    "NNJ.Props.C85_vjp",
    "NNJ.Props.C85_mjp"
   ],
   "note": "The model adds the terms of a product in an order that does not depend on the batch; torch may use different kernels for different batch sizes, which can change the last bits."
  }
 ]
}