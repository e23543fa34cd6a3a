"""Writes MANIFEST.json.  CLAIMS: property -> (status, theorems, note)."""
import json, os
P = "NNJ.Props."
NOTE = "for every nesting of Sequential/SkipConnection around Linear, elementwise, Flatten, Reshape, L2Norm, Conv2d (stride 1, dilation 1, groups 1, padding < kernel), Upsample (integer factor) and MaxPool2d (windows that do not overlap)"
CLAIMS = {
 "C01": ("proved", ["C01_jacobian_input", "C01_forward"], NOTE),
 "C02": ("proved", ["C02_jacobian_weight", "C02_forward"], NOTE),
 "C20": ("proved", ["C20_set_get", "C20_get_set", "C20_short", "C20_none"], "Parameters without sharing (`paramIds.Nodup`); tensors are values in this model."),
 "C21": ("proved", ["C21_frame", "C21_enclosing"], "Parameters without sharing (`paramIds.Nodup`). C21_enclosing: the enclosing network sees its weight vector overwritten at the offset of the submodule and nowhere else."),
 "C03": ("proved", ["C03_vjp_input", "C03_vjp_weight"], NOTE),
 "C04": ("proved", ["C04_mjp_input", "C04_mjp_weight", "C04_mjp_rows_input", "C04_mjp_rows_weight"], NOTE),
 "C05": ("proved", ["C05_jvp_input", "C05_jvp_weight"], "`FwdI` and `FwdW` list the layers with forward-mode support. The Jacobian is that of C01/C02, so a factor wrt the weights is read in the order of get_weight."),
 "C06": ("proved", ["C06_jmp_input", "C06_jmp_weight"], "Same networks as C05, with a matrix in place of the vector."),
 "C07": ("proved", ["C07_jTmjp_input", "C07_to_diag", "C07_from_diag"], NOTE),
 "C08": ("proved", ["C08_jTmjp_weight_diag", "C08_jTmjp_weight_blocks"], NOTE),
 "C09": ("proved", ["C09_jmjTp_input"], "All four combinations of from_diag and to_diag in one statement; diag_backprop=False."),
 "C10": ("proved", ["C10_jmjTp_weight", "C10_jmjTp_weight_diag", "C10_jmjTp_weight_list"], "The mask in C10_jmjTp_weight says exactly which entries of a full matrix are used; diag_backprop=False."),
 "C11": ("proved", ["C11_jTmjp_input", "C11_jTmjp_weight", "C11_jmjTp_input", "C11_jmjTp_weight", "C11_layer_matrix", "C11_exact",
         "C11_exact_weight", "C11_exact_layer", "C11_exact_all_but_one", "C11_exact_last_weights", "C11_not_exact"], NOTE),
 "C12": ("proved", ["C12_jTmjp_eq", "C12_jTmjp_input", "C12_jTmjp_weight_diag", "C12_jTmjp_weight_blocks", "C12_mjp_jmp", "C12_jmjTp_input",
         "C12_jmjTp_weight", "C12_flatten_raises", "C12_l2norm_raises", "C12_conv_raises", "C12_skip_jmjTp_raises",
         "C12_skip_jTmjp_spatial", "C12_seq_jmjTp_spatial", "C12_seq_jmjTp_flatten"], NOTE),
 "C13": ("proved", ["C13_none_iff", "C13_input_not_none", "C13_columns", "C13_forward_columns", "C13_backward_none", "C13_forward_none"], NOTE),
 "C36": ("proved", ["C36_no_params", "C36_jacobian_val", "C36_jacobian_val_weight", "C36_jacobian_val_raises", "C36_jacobian_val_wrong"],
         "C36_jacobian_val_weight: inner networks without Conv2d/Upsample/MaxPool2d"),
 "C14": ("proved", ["C14_adjoint_input", "C14_adjoint_weight"], "Proved from the programs of jvp and vjp, for the networks that have both."),
 "C15": ("proved", ["C15_jTmjp_input", "C15_jTmjp_input_diag", "C15_jTmjp_weight_diag", "C15_jTmjp_weight_blocks", "C15_jmjTp_input",
         "C15_jmjTp_input_diag", "C15_jmjTp_weight", "C15_jmjTp_weight_diag"], NOTE),
 "C16": ("proved", ["C16_forward", "C16_jacobian_input", "C16_jacobian_weight", "C16_vjp_input", "C16_vjp_weight", "C16_mjp_input", "C16_mjp_weight",
         "C16_jvp_input", "C16_jvp_weight", "C16_jmp_input", "C16_jmp_weight", "C16_jTmjp_input", "C16_jTmjp_weight_diag", "C16_jTmjp_weight_blocks",
         "C16_jmjTp_input", "C16_jmjTp_weight", "C16_diag_backprop"], NOTE),
 "C17": ("proved", ["C17_ok", "C17_history"], NOTE),
 "C18": ("proved", ["C18_val"], NOTE),
 "C19": ("proved", ["C19_ignores_x", "C19_last_forward", "C19_bad_history", "C19_bad_history_jvp"], "The first two theorems say what the code does in every state; the other two are concrete histories in which the result is not the product at the given x."),
 "C42": ("proved", ["C42_build"], "random initial values are not modelled: parameters are taken from the state"),
 "C22": ("proved", ["C22_forward", "C22_gradient_input", "C22_gradient_weight", "C22_no_parameters"],
         "sum and average; the model is not itself inside a Sequential"),
 "C23": ("proved", ["C23_forward", "C23_gradient_input", "C23_gradient_weight", "C25_binary", "C25_binary_full"], "as C22"),
 "C24": ("proved", ["C24_forward", "C24_gradient_input", "C24_gradient_weight", "C24_gradient_only", "C24_gradient_wrong", "C25_bernoulli",
         "C25_bernoulli_full"], "as C22; the converse needs a Jacobian with independent rows"),
 "C25": ("proved", ["C25_gaussian", "C25_binary", "C25_bernoulli", "C25_gaussian_full", "C25_binary_full", "C25_bernoulli_full", "C25_bernoulli_rows"],
         "exact propagation; LogBernoulli for outputs that are one class vector (otherwise it raises)"),
 "C26": ("proved", ["C26_init", "C26_none", "C26_forward", "C26_gradient", "C26_ggn", "C26_ggn_bernoulli"],
         "C26_forward/gradient/ggn compare the calls on the single samples with the calls on the batch for sum and average (ggn: exact propagation)"),
 "C27": ("proved", ["C27_converts", "C27_forward", "C27_same", "C27_flatten", "C27_flatten_empty", "C27_flattenAt", "C27_flattenAt_merges", "C27_flattenAt_range", "C27_upsample", "C27_nested", "C27_softplus", "C27_conv_padding", "C27_net", "C27_jacobian"],
         "C27_same/C27_forward: every list of layers (torch.nn.Flatten: C27_flatten, same value unless a tensor is empty; C27_flatten_empty); C27_net/C27_jacobian: well-shaped lists of layers with default settings (Typed)"),
 "C28": ("proved", ["C28_blockwise", "C28_raises", "C28_inverse_iff", "C28_factor", "C28_wrong"],
         "torch.cholesky_inverse is modelled by forward substitution on the lower triangle (exact arithmetic)"),
 "C29": ("proved", ["C29_jvp", "C29_jmp", "C29_vjp", "C29_mjp", "C29_jmjTp", "C29_jTmjp_full", "C29_jTmjp_diag_raises",
         "C29_jTmjp_diag_value", "C29_jTmjp_symm", "C29_jTmjp_diag_wrong", "C29_diag_backprop"], "for an arbitrary jacobian method"),
 "C30": ("proved", ["C30_jvp", "C30_jmp", "C30_vjp", "C30_mjp", "C30_none", "C30_jmjTp", "C30_jTmjp"],
         "for an arbitrary jacobian method"),
 "C31": ("proved", ["C31_products", "C31_distance", "C31_exact", "C31_never"], "|x| + eps = 0 is excluded from the derivative statements"),
 "C38": ("proved", ["C38_feature_maps", "C38_too_many", "C38_vjp_wrong", "C38_get_weight"],
         "C38_feature_maps / C38_too_many: layers whose forward keeps no state; C38_vjp_wrong is the concrete wrong result"),
 "C39": ("proved", ["C39_truncExp", "C39_softplus", "C39_relu"], "for the layer objects, every real input"),
 "C40": ("proved", ["C40_init", "C40_forward_mode", "C40_never_returns", "C40_attribute_error", "C40_keeps", "C40_exact"],
         "C40_forward_mode / C40_never_returns: every chain of layers and every argument; C40_exact: the same conditions on the layers as in C01"),
 "C37": ("proved", ["C37_parameters", "C37_getWeight", "C37_calls", "C37_blocks", "C37_three"],
         "every two networks with the same layers after removing the nesting of Sequentials (also inside SkipConnections), not only the three groupings; C37_calls: every product with its matrix/vector given"),
 "C32": ("proved", ["C32_selection", "C32_derivative", "C32_disjoint", "C32_stride", "C32_overlap", "C32_iff"],
         "C32_iff: vjp is right for every image exactly when no two windows overlap"),
 "C33": ("proved", ["C33_stride_guard", "C33_stride_guard_exact", "C33_vmap_loop"],
         "every configuration and argument; batches with at least one sample, val (if given) without empty dimensions"),
 "C34": ("proved", ["C34_forward", "C34_input", "C34_weight", "C34_raises"], "dilation 1 in the derivative statements"),
 "C35": ("proved", ["C35_conv_jvp", "C35_conv_jmp", "C35_conv_jmjTp_val", "C35_conv_jmjTp", "C35_upsample_jvp",
         "C35_upsample_jmp", "C35_upsample_jmjTp", "C35_maxpool_jvp", "C35_maxpool_jmjTp",
         "C35_sequential_jvp", "C35_sequential_jmjTp"], "for every scalar type, argument and state"),
 "C41": ("proved", ["C41_sequential_jTmjp", "C41_readme", "C41_sequential_jmjTp", "C41_skip_jTmjp", "C41_skip_jmjTp"],
         "for every list of layers, argument and state"),
 "C43": ("proved", ["C43_forward", "C43_vjp_iff", "C43_jacobian_iff", "C43_vjp_value", "C43_small"],
         "exact rational factor (torch computes 1/f in floating point)"),
 "C44": ("proved", ["C44_forward", "C44_input", "C44_weight_raises"], "not stated: a dilation >= 2 that has no effect (one-pixel image and kernel)"),
 "C45": ("proved", ["C45_gaussian", "C45_binary", "C45_no_parameters", "C45_exact", "C45_not_exact", "C45_full_raises", "C45_bernoulli_raises", "C45_layer", "C45_l2norm", "C45_l2norm_bernoulli"],
         "C45_gaussian/binary: Q and QW are the products of squared layer Jacobians of C11 (C11_layer_matrix)"),
 "C46": ("proved", ["C46_forward", "C46_reverse", "C46_append", "C46_grows", "C46_unbounded", "C46_fresh_raises", "C46_fresh_wrong"],
         "The wrong product is a concrete witness: Sequential(Sinusoidal()) at pi. jmjTp is not among the reverse-mode products here (it leaves this Sequential's own list alone but may append to lists inside SkipConnections)."),
 "C47": ("proved", ["C47_ggn", "C47_no_params", "C47_mse"],
         "C47_mse: smoothness of the network is required only for the statement that D is the derivative (as in C02). The BackPACK benchmark itself is not modelled; the theorem is about the mathematical Gauss-Newton diagonal of the loss."),
 "C48": ("proved", ["C48_sequential", "C48_two", "C48_skip"],
         "LayerJacobians is an inductive predicate about calls (forward and jacobian) on the layers."),
 "C49": ("proved", ["C49_train", "C49_std", "C49_sample", "C49_sample_forgets", "C49_readme", "C49_readme_ggn", "C49_unet"],
         "Finding: the notebook's samples omit the mean; the README's GGN call raises AssertionError. torch.randn is an arbitrary vector; plots and statistics are not modelled. C49_readme is for outputs that are vectors."),
 "C50": ("proved", ["C50_target", "C50_init"],
         "The checks come after the forward pass of the model, so the caches are already renewed when an exception is raised."),
 "C51": ("proved", ["C51_never", "C51_sequential", "C51_skip", "C51_leaf", "C51_silent"],
         "A defect of the code (inconsistent validation); the theorems state what it does."),
 "C52": ("proved", ["C52_slice", "C52_others", "C52_results", "C52_val", "C52_stale"],
         "C52_stale is a defect of the code: the backward products trust caches that another owner of the layer may have overwritten."),
 "C53": ("proved", ["C53_unedited", "C53_forward", "C53_forward_mode", "C53_backward", "C53_jacobian", "C53_weight", "C53_parameters", "C53_get_weight", "C53_setitem", "C53_wrong"],
         "C53_backward, C53_jacobian, C53_wrong describe a defect of the code: derivatives of the model without the appended layer, returned silently."),
 "C54": ("proved", ["C54_forward_mode", "C54_val", "C54_backward", "C54_leak", "C54_original"],
         "C54_backward and C54_leak describe a defect of the code: hooks are closures over the original Sequential."),
 "C55": ("proved", ["C55_refines", "C55_linked", "C55_live", "C55_write", "C55_shared", "C55_get", "C55_convert", "C55_witness"],
         "torch.nn.utils.vector_to_parameters and torch.cat are modelled with their storages; all views are contiguous."),
 "C56": ("proved", ["C56_vjp", "C56_mjp", "C56_jacobian", "C56_softplus", "C56_l2norm", "C56_reference_act"],
         "autograd is specified by the backward formulas of the torch functions used in the forward passes (Spec/Autograd), swept in reverse; C56_reference_act shows that they are derivatives where these exist. C56_softplus and C56_l2norm say exactly where agreement fails."),
 "C57": ("proved", ["C57_forward", "C57_raises", "C57_malformed", "C57_empty", "C57_flatten", "C57_products"],
         "networks may contain Reshape layers with a size left open, so all network properties cover them."),
 "C58": ("proved", ["C58_default", "C58_mode", "C58_bilinear_forward", "C58_bilinear_vjp_iff", "C58_bilinear_jacobian_iff", "C58_size_forward", "C58_size_raises", "C58_size_type", "C58_size_and_scale"],
         "the property 'the products are those of the derivative of forward' is false for these options; C58 says exactly when it holds. Other modes than nearest and bilinear are covered by C58_mode through an arbitrary forward pass."),
 "C59": ("proved", ["C59_layer", "C59_val", "C59_between"],
         "Act.custom is a constructor of the activations that occur in Net, so every theorem quantified over networks includes user-defined elementwise layers. For user-defined layers that are not elementwise see C29."),
 "C60": ("proved", ["C60_rows", "C60_mismatch", "C60_width", "C60_strict", "C60_rank"],
         "The Jacobian is the one that jacobian(x, None) returns in the same state (by C01 the derivative)."),
 "C61": ("proved", ["C61_input", "C61_backprop", "C61_val", "C61_conv"],
         "Layers given by `ILayer` and `ILayer.Exact` (what the layer must do on its own); the wiring hypotheses are those of `Net.Ok`."),
 "C62": ("proved", ["C62_forward", "C62_products", "C62_jacobian", "C62_skip", "C62_skip_wrong"],
         "Memory model for the forward pass (`Model/Inplace`); the products read memory and write none, so they are those of the value model on what the references hold."),
 "C63": ("proved", ["C63_init", "C63_stride", "C63_string", "C63_forward", "C63_products", "C63_refused", "C63_exact_iff", "C63_no_padding", "C63_positive"],
         "Finding: with padding_mode other than zeros the returned Jacobians are wrong."),
 "C64": ("proved", ["C64_test", "C64_suite", "C64_nested_empty", "C64_detects_jvp_input", "C64_detects_jvp_weight", "C64_detects_vjp_input", "C64_detects_vjp_weight", "C64_detects_jmp_input", "C64_detects_jmp_weight", "C64_detects_mjp_input", "C64_detects_mjp_weight", "C64_detects_jmjTp_input", "C64_detects_jTmjp_input", "C64_detects_jmjTp_weight", "C64_detects_jmjTp_nested", "C64_detects_jTmjp_weight", "C64_blocks"],
         "Over the reals: with rounding a test can fail when the entries are large. Finding: the helper embed_block_diagonal fails on an empty list."),
 "C65": ("proved", ["C65_input", "C65_weight", "C65_near", "C65_none", "C65_shared", "C65_suite", "C65_softplus", "C65_l2norm", "C65_l2norm_fails", "C65_detects_input", "C65_detects_weight"],
         "Over the reals. Autograd on networks is Net.backward (C56). Finding: the test wrt weights cannot be run on networks with shared parameters, and the L2Norm test passes only because the inputs are not small."),
 "C66": ("proved", ["C66_forward", "C66_raises", "C66_one", "C66_many"],
         "Finding: the silent wrong shape for layers of width one comes from the broadcasting of torch.einsum."),
 "C67": ("proved", ["C67_forward", "C67_input", "C67_weight", "C67_tied", "C67_state", "C67_build"],
         "Complements C38: sharing a layer object is harmless in forward mode. jvp/jmp need the layers that implement them (no Conv2d, Upsample, MaxPool2d)."),
 "C68": ("proved", ["C68_forward", "C68_input", "C68_seq", "C68_value", "C68_weight", "C68_seqWeight", "C68_linear"],
         "A finding: the library evaluates most networks on empty batches but cannot differentiate them. torch: reshape of an empty tensor with -1 and a 0 among the given sizes raises, t[0] raises."),
 "C69": ("proved", ["C69_input", "C69_weight", "C69_pools", "C69_maxpool"],
         "A finding: MaxPool2d.jmp accepts only matrices with as many columns as it has inputs (nnj/maxpool2d.py:97). Completes C67, which treats only networks without Conv2d, Upsample and MaxPool2d, by the exact conditions."),
 "C70": ("proved", ["C70_jvp", "C70_jmp", "C70_jmp_bias", "C70_vjp", "C70_mjp", "C70_width", "C70_jTmjp"],
         "A finding: no check of the width of the argument in vjp, mjp and jTmjp wrt weight, and reshapes in jmp that accept matrices for another number of samples. The analogue of C60 (vjp wrt input) for the weights."),
 "C71": ("proved", ["C71_input", "C71_weight", "C71_input_raises", "C71_weight_raises", "C71_input_weight"],
         "C10, C11, C12, C15, C16 and C64 use the same weaker condition for jmjTp wrt weight."),
 "C72": ("proved", ["C72_blocks", "C72_gaussian_weight", "C72_binary_weight", "C72_bernoulli_weight", "C72_layer", "C72_layer_bernoulli", "C72_gaussian_input", "C72_binary_input", "C72_bernoulli_input", "C72_tanh"],
         "Only metric_backprop='exact'; C45 says what 'approx' returns."),
 "C73": ("proved", ["C73_binary", "C73_bernoulli", "C73_gaussian"],
         "LogBernoulli for outputs that are one class vector (ggn raises otherwise, C25). metric_shape='full' with respect to the weights only for a single layer (raises for containers, C25)."),
 "C74": ("proved", ["C74_ascent", "C74_ascent_bernoulli", "C74_stationary", "C74_stationary_bernoulli", "C74_newton", "C74_two_layers"],
         "The Newton part needs a single layer because ggn(metric_shape='full', wrt='weight') raises for containers (C25)."),
 "C75": ("proved", ["C75_same_shapes_and_exceptions", "C75_histories", "C75_returns_in_any_number_system", "C75_run_on_shapes", "C75_maxpool_depends_on_the_numbers"],
         "Transfers every theorem about when a method returns and with which shape from the reals to any number type; says nothing about the values in floating point."),
 "C76": ("proved", ["C76_binary_gradient", "C76_bernoulli_gradient", "C76_binary_ggn", "C76_bernoulli_ggn", "C76_regression_gradient", "C76_step_destroys_the_class", "C76_network_gradient", "C76_step_destroys_the_network", "C76_sigmoid_does_not_overflow"],
         "A defect of the code: the theorems over the real numbers cannot see it. The laws are assumptions about the number type, shown to hold for one example type (Fl M); that IEEE formats satisfy them is not proved here. forward uses torch's stabilised logsumexp and is not covered."),
 "C77": ("proved", ["C77_forward", "C77_jacobian_input", "C77_jacobian_weight", "C77_reverse_input", "C77_reverse_weight", "C77_forward_mode_input", "C77_forward_mode_weight", "C77_jTmjp_diag_raises"],
         "New layers are assumed to keep no state of their own besides their parameters. Forward-mode products have the same limits as for library networks (C05, C06, C10: FwdI, FwdW). Library layers inherit some of these products too (C29 states the defect for one layer)."),
 "C78": ("proved", ["C78_forward_backward_stable", "C78_bound", "C78_no_parameters_exact", "C78_linear_error"],
         "The model sums from left to right; overflow and underflow are excluded (C76 is about overflow). The perturbed weights depend on the sample. Conv2d (each pixel has its own rounding errors), other activations, and the product methods are not covered. `Fl t` in the same file is rounding to nearest with t+1 binary digits and is shown to satisfy the assumptions."),
 "C79": ("proved", ["C79_dtype_kept", "C79_default_is_safe", "C79_default_is_safe_chain", "C79_backward_errors", "C79_backward_returns", "C79_likelihood", "C79_mixed_forward", "C79_set_weight", "C79_get_weight", "C79_resize_backward", "C79_resize_training", "C79_conv_jacobian", "C79_loop_conv", "C79_loop_conv_net", "C79_default_jacobians"],
         "In a model of its own (Model/Dtype): tensors are their dtype and the lowest precision their numbers went through, every method is written again branch by branch. Torch's rules for mixed dtypes are trusted and listed there. Shapes are left out: the calls are taken to have the right shapes and a non-empty batch."),
 "C80": ("proved", ["C80_backward", "C80_one_forward", "C80_jmjTp", "C80_skip_jmjTp", "C80_forward_mode", "C80_nested"],
         "\"Evaluates no layer\" is stated without counting: nothing observable changes if forward of every layer, and every method of a layer called without val, is replaced by an exception. C80_nested counts with an arbitrary counter that forward of the layer increases."),
 "C81": ("proved", ["C81_same_order", "C81_forward", "C81_exact", "C81_gap", "C81_l2norm"],
         "In a model of its own (Model/Work): networks are their sizes and each method is its number of scalar operations, written line by line. What an operation of torch costs (einsum from left to right, convolutions without FFT) is trusted and listed there. val and the metric are given; groups = 1. For the exact diagonal only the Linear layers are counted, as a lower bound."),
 "C82": ("proved", ["C82_vjp", "C82_vjp_weight", "C82_linear_error"],
         "Same assumptions on the arithmetic as C78 (sums from left to right, no overflow or underflow), and multiplication by 1 exact. `Bin t` in the same file, binary numbers with t+1 digits and rounding to nearest, satisfies them. SkipConnection is not covered: its sum adds a rounding error that is not a change of the weights. The exact vjp is the model's program over the reals, run in a state with the changed weights and the feature maps of the rounded run."),
 "C83": ("proved", ["C83_diag", "C83_identity", "C83_vjp_cancels"],
         "Same assumptions on the arithmetic as C78 (sums from left to right, no overflow or underflow), and 1 represented. The exact result is the model's program over the reals in the state after the rounded forward pass, so errors of the forward pass are not included (C78 is about them)."),
 "C84": ("proved", ["C84_rows", "C84_jacobian", "C84_mjp_errors", "C84_infinite_weight", "C84_columns", "C84_columns_weights"],
         "The model adds the terms of an einsum in the same order in mjp and vjp, and in jmp and jvp; torch may use different kernels for them, which can change the order and with it the last bits. The infinite weight theorem uses the numbers of C76 (reals up to a bound, two infinities, NaN) and the feature maps that forward leaves."),
 "C85": ("proved", ["C85_forward", "C85_jvp", "C85_jmp", "C85_vjp", "C85_mjp"],
         "The model adds the terms of a product in an order that does not depend on the batch; torch may use different kernels for different batch sizes, which can change the last bits."),
}
root = os.path.dirname(os.path.dirname(os.path.abspath(__file__)))
claims = [{"property": k, "status": s, "theorems": [P + t for t in ts], "note": n}
          for k, (s, ts, n) in sorted(CLAIMS.items())]
json.dump({"claims": claims}, open(os.path.join(root, "MANIFEST.json"), "w"), indent=1)
