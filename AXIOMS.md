# Axioms used by each property theorem

Generated by `tools/gen_axioms.py` from `#print axioms`.

| theorem | axioms |
|---|---|
| `NNJ.Props.C01_jacobian_input` | propext, Classical.choice, Quot.sound |
| `NNJ.Props.C01_forward` | propext, Classical.choice, Quot.sound |
| `NNJ.Props.C02_jacobian_weight` | propext, Classical.choice, Quot.sound |
| `NNJ.Props.C02_forward` | propext, Classical.choice, Quot.sound |
| `NNJ.Props.C03_vjp_input` | propext, Classical.choice, Quot.sound |
| `NNJ.Props.C03_vjp_weight` | propext, Classical.choice, Quot.sound |
| `NNJ.Props.C04_mjp_input` | propext, Classical.choice, Quot.sound |
| `NNJ.Props.C04_mjp_weight` | propext, Classical.choice, Quot.sound |
| `NNJ.Props.C04_mjp_rows_input` | propext, Classical.choice, Quot.sound |
| `NNJ.Props.C04_mjp_rows_weight` | propext, Classical.choice, Quot.sound |
| `NNJ.Props.C05_jvp_input` | propext, Classical.choice, Quot.sound |
| `NNJ.Props.C05_jvp_weight` | propext, Classical.choice, Quot.sound |
| `NNJ.Props.C06_jmp_input` | propext, Classical.choice, Quot.sound |
| `NNJ.Props.C06_jmp_weight` | propext, Classical.choice, Quot.sound |
| `NNJ.Props.C07_jTmjp_input` | propext, Classical.choice, Quot.sound |
| `NNJ.Props.C07_to_diag` | propext, Classical.choice, Quot.sound |
| `NNJ.Props.C07_from_diag` | propext, Classical.choice, Quot.sound |
| `NNJ.Props.C08_jTmjp_weight_diag` | propext, Classical.choice, Quot.sound |
| `NNJ.Props.C08_jTmjp_weight_blocks` | propext, Classical.choice, Quot.sound |
| `NNJ.Props.C09_jmjTp_input` | propext, Classical.choice, Quot.sound |
| `NNJ.Props.C10_jmjTp_weight` | propext, Classical.choice, Quot.sound |
| `NNJ.Props.C10_jmjTp_weight_diag` | propext, Classical.choice, Quot.sound |
| `NNJ.Props.C10_jmjTp_weight_list` | propext, Classical.choice, Quot.sound |
| `NNJ.Props.C11_jTmjp_input` | propext, Classical.choice, Quot.sound |
| `NNJ.Props.C11_jTmjp_weight` | propext, Classical.choice, Quot.sound |
| `NNJ.Props.C11_jmjTp_input` | propext, Classical.choice, Quot.sound |
| `NNJ.Props.C11_jmjTp_weight` | propext, Classical.choice, Quot.sound |
| `NNJ.Props.C11_layer_matrix` | propext, Classical.choice, Quot.sound |
| `NNJ.Props.C11_exact` | propext, Classical.choice, Quot.sound |
| `NNJ.Props.C11_exact_weight` | propext, Classical.choice, Quot.sound |
| `NNJ.Props.C11_exact_layer` | propext, Classical.choice, Quot.sound |
| `NNJ.Props.C11_exact_all_but_one` | propext, Classical.choice, Quot.sound |
| `NNJ.Props.C11_exact_last_weights` | propext, Classical.choice, Quot.sound |
| `NNJ.Props.C11_not_exact` | propext, Classical.choice, Quot.sound |
| `NNJ.Props.C12_jTmjp_eq` | propext, Classical.choice, Quot.sound |
| `NNJ.Props.C12_jTmjp_input` | propext, Classical.choice, Quot.sound |
| `NNJ.Props.C12_jTmjp_weight_diag` | propext, Classical.choice, Quot.sound |
| `NNJ.Props.C12_jTmjp_weight_blocks` | propext, Classical.choice, Quot.sound |
| `NNJ.Props.C12_mjp_jmp` | propext, Classical.choice, Quot.sound |
| `NNJ.Props.C12_jmjTp_input` | propext, Classical.choice, Quot.sound |
| `NNJ.Props.C12_jmjTp_weight` | propext, Classical.choice, Quot.sound |
| `NNJ.Props.C12_flatten_raises` | propext, Classical.choice, Quot.sound |
| `NNJ.Props.C12_l2norm_raises` | propext, Classical.choice, Quot.sound |
| `NNJ.Props.C12_conv_raises` | propext, Classical.choice, Quot.sound |
| `NNJ.Props.C12_skip_jmjTp_raises` | propext, Classical.choice, Quot.sound |
| `NNJ.Props.C12_skip_jTmjp_spatial` | propext, Classical.choice, Quot.sound |
| `NNJ.Props.C12_seq_jmjTp_spatial` | propext, Classical.choice, Quot.sound |
| `NNJ.Props.C12_seq_jmjTp_flatten` | propext, Classical.choice, Quot.sound |
| `NNJ.Props.C13_none_iff` | propext, Classical.choice, Quot.sound |
| `NNJ.Props.C13_input_not_none` | propext, Classical.choice, Quot.sound |
| `NNJ.Props.C13_columns` | propext, Classical.choice, Quot.sound |
| `NNJ.Props.C13_forward_columns` | propext, Classical.choice, Quot.sound |
| `NNJ.Props.C13_backward_none` | propext, Classical.choice, Quot.sound |
| `NNJ.Props.C13_forward_none` | propext, Classical.choice, Quot.sound |
| `NNJ.Props.C14_adjoint_input` | propext, Classical.choice, Quot.sound |
| `NNJ.Props.C14_adjoint_weight` | propext, Classical.choice, Quot.sound |
| `NNJ.Props.C15_jTmjp_input` | propext, Classical.choice, Quot.sound |
| `NNJ.Props.C15_jTmjp_input_diag` | propext, Classical.choice, Quot.sound |
| `NNJ.Props.C15_jTmjp_weight_diag` | propext, Classical.choice, Quot.sound |
| `NNJ.Props.C15_jTmjp_weight_blocks` | propext, Classical.choice, Quot.sound |
| `NNJ.Props.C15_jmjTp_input` | propext, Classical.choice, Quot.sound |
| `NNJ.Props.C15_jmjTp_input_diag` | propext, Classical.choice, Quot.sound |
| `NNJ.Props.C15_jmjTp_weight` | propext, Classical.choice, Quot.sound |
| `NNJ.Props.C15_jmjTp_weight_diag` | propext, Classical.choice, Quot.sound |
| `NNJ.Props.C16_forward` | propext, Classical.choice, Quot.sound |
| `NNJ.Props.C16_jacobian_input` | propext, Classical.choice, Quot.sound |
| `NNJ.Props.C16_jacobian_weight` | propext, Classical.choice, Quot.sound |
| `NNJ.Props.C16_vjp_input` | propext, Classical.choice, Quot.sound |
| `NNJ.Props.C16_vjp_weight` | propext, Classical.choice, Quot.sound |
| `NNJ.Props.C16_mjp_input` | propext, Classical.choice, Quot.sound |
| `NNJ.Props.C16_mjp_weight` | propext, Classical.choice, Quot.sound |
| `NNJ.Props.C16_jvp_input` | propext, Classical.choice, Quot.sound |
| `NNJ.Props.C16_jvp_weight` | propext, Classical.choice, Quot.sound |
| `NNJ.Props.C16_jmp_input` | propext, Classical.choice, Quot.sound |
| `NNJ.Props.C16_jmp_weight` | propext, Classical.choice, Quot.sound |
| `NNJ.Props.C16_jTmjp_input` | propext, Classical.choice, Quot.sound |
| `NNJ.Props.C16_jTmjp_weight_diag` | propext, Classical.choice, Quot.sound |
| `NNJ.Props.C16_jTmjp_weight_blocks` | propext, Classical.choice, Quot.sound |
| `NNJ.Props.C16_jmjTp_input` | propext, Classical.choice, Quot.sound |
| `NNJ.Props.C16_jmjTp_weight` | propext, Classical.choice, Quot.sound |
| `NNJ.Props.C16_diag_backprop` | propext, Classical.choice, Quot.sound |
| `NNJ.Props.C17_ok` | propext, Classical.choice, Quot.sound |
| `NNJ.Props.C17_history` | propext, Classical.choice, Quot.sound |
| `NNJ.Props.C18_val` | propext, Classical.choice, Quot.sound |
| `NNJ.Props.C19_ignores_x` | propext, Classical.choice, Quot.sound |
| `NNJ.Props.C19_last_forward` | propext, Classical.choice, Quot.sound |
| `NNJ.Props.C19_bad_history` | propext, Classical.choice, Quot.sound |
| `NNJ.Props.C19_bad_history_jvp` | propext, Classical.choice, Quot.sound |
| `NNJ.Props.C20_set_get` | propext, Classical.choice, Quot.sound |
| `NNJ.Props.C20_get_set` | propext, Classical.choice, Quot.sound |
| `NNJ.Props.C20_short` | propext, Classical.choice, Quot.sound |
| `NNJ.Props.C20_none` | propext, Classical.choice, Quot.sound |
| `NNJ.Props.C21_frame` | propext, Classical.choice, Quot.sound |
| `NNJ.Props.C21_enclosing` | propext, Classical.choice, Quot.sound |
| `NNJ.Props.C22_forward` | propext, Classical.choice, Quot.sound |
| `NNJ.Props.C22_gradient_input` | propext, Classical.choice, Quot.sound |
| `NNJ.Props.C22_gradient_weight` | propext, Classical.choice, Quot.sound |
| `NNJ.Props.C22_no_parameters` | propext, Classical.choice, Quot.sound |
| `NNJ.Props.C23_forward` | propext, Classical.choice, Quot.sound |
| `NNJ.Props.C23_gradient_input` | propext, Classical.choice, Quot.sound |
| `NNJ.Props.C23_gradient_weight` | propext, Classical.choice, Quot.sound |
| `NNJ.Props.C25_binary` | propext, Classical.choice, Quot.sound |
| `NNJ.Props.C25_binary_full` | propext, Classical.choice, Quot.sound |
| `NNJ.Props.C24_forward` | propext, Classical.choice, Quot.sound |
| `NNJ.Props.C24_gradient_input` | propext, Classical.choice, Quot.sound |
| `NNJ.Props.C24_gradient_weight` | propext, Classical.choice, Quot.sound |
| `NNJ.Props.C24_gradient_only` | propext, Classical.choice, Quot.sound |
| `NNJ.Props.C24_gradient_wrong` | propext, Classical.choice, Quot.sound |
| `NNJ.Props.C25_bernoulli` | propext, Classical.choice, Quot.sound |
| `NNJ.Props.C25_bernoulli_full` | propext, Classical.choice, Quot.sound |
| `NNJ.Props.C25_gaussian` | propext, Classical.choice, Quot.sound |
| `NNJ.Props.C25_gaussian_full` | propext, Classical.choice, Quot.sound |
| `NNJ.Props.C25_bernoulli_rows` | propext, Classical.choice, Quot.sound |
| `NNJ.Props.C26_init` | propext |
| `NNJ.Props.C26_none` | propext, Classical.choice, Quot.sound |
| `NNJ.Props.C26_forward` | propext, Classical.choice, Quot.sound |
| `NNJ.Props.C26_gradient` | propext, Classical.choice, Quot.sound |
| `NNJ.Props.C26_ggn` | propext, Classical.choice, Quot.sound |
| `NNJ.Props.C26_ggn_bernoulli` | propext, Classical.choice, Quot.sound |
| `NNJ.Props.C27_converts` | propext, Classical.choice, Quot.sound |
| `NNJ.Props.C27_forward` | propext, Classical.choice, Quot.sound |
| `NNJ.Props.C27_same` | propext, Classical.choice, Quot.sound |
| `NNJ.Props.C27_flatten` | propext, Classical.choice, Quot.sound |
| `NNJ.Props.C27_flatten_empty` | propext, Classical.choice, Quot.sound |
| `NNJ.Props.C27_flattenAt` | propext, Classical.choice, Quot.sound |
| `NNJ.Props.C27_flattenAt_merges` | propext, Classical.choice, Quot.sound |
| `NNJ.Props.C27_flattenAt_range` | propext, Classical.choice, Quot.sound |
| `NNJ.Props.C27_upsample` | propext, Classical.choice, Quot.sound |
| `NNJ.Props.C27_nested` | propext, Classical.choice, Quot.sound |
| `NNJ.Props.C27_softplus` | propext, Classical.choice, Quot.sound |
| `NNJ.Props.C27_conv_padding` | propext, Classical.choice, Quot.sound |
| `NNJ.Props.C27_net` | propext, Classical.choice, Quot.sound |
| `NNJ.Props.C27_jacobian` | propext, Classical.choice, Quot.sound |
| `NNJ.Props.C28_blockwise` | propext, Classical.choice, Quot.sound |
| `NNJ.Props.C28_raises` | propext, Classical.choice, Quot.sound |
| `NNJ.Props.C28_inverse_iff` | propext, Classical.choice, Quot.sound |
| `NNJ.Props.C28_factor` | propext, Classical.choice, Quot.sound |
| `NNJ.Props.C28_wrong` | propext, Classical.choice, Quot.sound |
| `NNJ.Props.C29_jvp` | propext, Classical.choice, Quot.sound |
| `NNJ.Props.C29_jmp` | propext, Classical.choice, Quot.sound |
| `NNJ.Props.C29_vjp` | propext, Classical.choice, Quot.sound |
| `NNJ.Props.C29_mjp` | propext, Classical.choice, Quot.sound |
| `NNJ.Props.C29_jmjTp` | propext, Classical.choice, Quot.sound |
| `NNJ.Props.C29_jTmjp_full` | propext, Classical.choice, Quot.sound |
| `NNJ.Props.C29_jTmjp_diag_raises` | propext, Classical.choice, Quot.sound |
| `NNJ.Props.C29_jTmjp_diag_value` | propext, Classical.choice, Quot.sound |
| `NNJ.Props.C29_jTmjp_symm` | propext, Classical.choice, Quot.sound |
| `NNJ.Props.C29_jTmjp_diag_wrong` | propext, Classical.choice, Quot.sound |
| `NNJ.Props.C29_diag_backprop` | propext, Classical.choice, Quot.sound |
| `NNJ.Props.C30_jvp` | propext, Classical.choice, Quot.sound |
| `NNJ.Props.C30_jmp` | propext, Classical.choice, Quot.sound |
| `NNJ.Props.C30_vjp` | propext, Classical.choice, Quot.sound |
| `NNJ.Props.C30_mjp` | propext, Classical.choice, Quot.sound |
| `NNJ.Props.C30_none` | propext, Classical.choice, Quot.sound |
| `NNJ.Props.C30_jmjTp` | propext, Classical.choice, Quot.sound |
| `NNJ.Props.C30_jTmjp` | propext, Classical.choice, Quot.sound |
| `NNJ.Props.C31_products` | propext, Classical.choice, Quot.sound |
| `NNJ.Props.C31_distance` | propext, Classical.choice, Quot.sound |
| `NNJ.Props.C31_exact` | propext, Classical.choice, Quot.sound |
| `NNJ.Props.C31_never` | propext, Classical.choice, Quot.sound |
| `NNJ.Props.C32_selection` | propext, Classical.choice, Quot.sound |
| `NNJ.Props.C32_derivative` | propext, Classical.choice, Quot.sound |
| `NNJ.Props.C32_disjoint` | propext, Classical.choice, Quot.sound |
| `NNJ.Props.C32_stride` | propext, Classical.choice, Quot.sound |
| `NNJ.Props.C32_overlap` | propext, Classical.choice, Quot.sound |
| `NNJ.Props.C32_iff` | propext, Classical.choice, Quot.sound |
| `NNJ.Props.C33_stride_guard` | propext, Quot.sound |
| `NNJ.Props.C33_stride_guard_exact` | propext, Quot.sound |
| `NNJ.Props.C33_vmap_loop` | propext, Classical.choice, Quot.sound |
| `NNJ.Props.C34_forward` | propext, Classical.choice, Quot.sound |
| `NNJ.Props.C34_input` | propext, Classical.choice, Quot.sound |
| `NNJ.Props.C34_weight` | propext, Classical.choice, Quot.sound |
| `NNJ.Props.C34_raises` | propext, Classical.choice, Quot.sound |
| `NNJ.Props.C35_conv_jvp` | propext, Quot.sound |
| `NNJ.Props.C35_conv_jmp` | propext, Quot.sound |
| `NNJ.Props.C35_conv_jmjTp_val` | propext, Quot.sound |
| `NNJ.Props.C35_conv_jmjTp` | propext, Quot.sound |
| `NNJ.Props.C35_upsample_jvp` | propext, Quot.sound |
| `NNJ.Props.C35_upsample_jmp` | propext, Quot.sound |
| `NNJ.Props.C35_upsample_jmjTp` | propext, Quot.sound |
| `NNJ.Props.C35_maxpool_jvp` | propext, Quot.sound |
| `NNJ.Props.C35_maxpool_jmjTp` | propext, Quot.sound |
| `NNJ.Props.C35_sequential_jvp` | propext |
| `NNJ.Props.C35_sequential_jmjTp` | propext |
| `NNJ.Props.C36_no_params` | propext, Classical.choice, Quot.sound |
| `NNJ.Props.C36_jacobian_val` | propext, Classical.choice, Quot.sound |
| `NNJ.Props.C36_jacobian_val_weight` | propext, Classical.choice, Quot.sound |
| `NNJ.Props.C36_jacobian_val_raises` | propext, Classical.choice, Quot.sound |
| `NNJ.Props.C36_jacobian_val_wrong` | propext, Classical.choice, Quot.sound |
| `NNJ.Props.C37_parameters` | propext, Classical.choice, Quot.sound |
| `NNJ.Props.C37_getWeight` | propext, Classical.choice, Quot.sound |
| `NNJ.Props.C37_calls` | propext, Classical.choice, Quot.sound |
| `NNJ.Props.C37_blocks` | propext, Classical.choice, Quot.sound |
| `NNJ.Props.C37_three` | propext, Classical.choice, Quot.sound |
| `NNJ.Props.C38_feature_maps` | propext, Classical.choice, Quot.sound |
| `NNJ.Props.C38_too_many` | propext, Classical.choice, Quot.sound |
| `NNJ.Props.C38_vjp_wrong` | propext, Classical.choice, Quot.sound |
| `NNJ.Props.C38_get_weight` | propext, Classical.choice, Quot.sound |
| `NNJ.Props.C39_truncExp` | propext, Classical.choice, Quot.sound |
| `NNJ.Props.C39_softplus` | propext, Classical.choice, Quot.sound |
| `NNJ.Props.C39_relu` | propext, Classical.choice, Quot.sound |
| `NNJ.Props.C40_init` | propext, Classical.choice, Quot.sound |
| `NNJ.Props.C40_forward_mode` | propext, Classical.choice, Quot.sound |
| `NNJ.Props.C40_never_returns` | propext, Classical.choice, Quot.sound |
| `NNJ.Props.C40_attribute_error` | propext, Classical.choice, Quot.sound |
| `NNJ.Props.C40_keeps` | propext, Classical.choice, Quot.sound |
| `NNJ.Props.C40_exact` | propext, Classical.choice, Quot.sound |
| `NNJ.Props.C41_sequential_jTmjp` | propext, Quot.sound |
| `NNJ.Props.C41_readme` | propext, Quot.sound |
| `NNJ.Props.C41_sequential_jmjTp` | propext |
| `NNJ.Props.C41_skip_jTmjp` | propext, Quot.sound |
| `NNJ.Props.C41_skip_jmjTp` | propext, Quot.sound |
| `NNJ.Props.C42_build` | propext, Classical.choice, Quot.sound |
| `NNJ.Props.C43_forward` | propext, Classical.choice, Quot.sound |
| `NNJ.Props.C43_vjp_iff` | propext, Classical.choice, Quot.sound |
| `NNJ.Props.C43_jacobian_iff` | propext, Classical.choice, Quot.sound |
| `NNJ.Props.C43_vjp_value` | propext, Classical.choice, Quot.sound |
| `NNJ.Props.C43_small` | propext, Classical.choice, Quot.sound |
| `NNJ.Props.C44_forward` | propext, Classical.choice, Quot.sound |
| `NNJ.Props.C44_input` | propext, Classical.choice, Quot.sound |
| `NNJ.Props.C44_weight_raises` | propext, Classical.choice, Quot.sound |
| `NNJ.Props.C45_gaussian` | propext, Classical.choice, Quot.sound |
| `NNJ.Props.C45_binary` | propext, Classical.choice, Quot.sound |
| `NNJ.Props.C45_no_parameters` | propext, Classical.choice, Quot.sound |
| `NNJ.Props.C45_exact` | propext, Classical.choice, Quot.sound |
| `NNJ.Props.C45_not_exact` | propext, Classical.choice, Quot.sound |
| `NNJ.Props.C45_full_raises` | propext, Classical.choice, Quot.sound |
| `NNJ.Props.C45_bernoulli_raises` | propext, Classical.choice, Quot.sound |
| `NNJ.Props.C45_layer` | propext, Classical.choice, Quot.sound |
| `NNJ.Props.C45_l2norm` | propext, Classical.choice, Quot.sound |
| `NNJ.Props.C45_l2norm_bernoulli` | propext, Classical.choice, Quot.sound |
| `NNJ.Props.C46_forward` | propext, Classical.choice, Quot.sound |
| `NNJ.Props.C46_reverse` | propext, Classical.choice, Quot.sound |
| `NNJ.Props.C46_append` | propext, Classical.choice, Quot.sound |
| `NNJ.Props.C46_grows` | propext, Classical.choice, Quot.sound |
| `NNJ.Props.C46_unbounded` | propext, Classical.choice, Quot.sound |
| `NNJ.Props.C46_fresh_raises` | propext, Classical.choice, Quot.sound |
| `NNJ.Props.C46_fresh_wrong` | propext, Classical.choice, Quot.sound |
| `NNJ.Props.C47_ggn` | propext, Classical.choice, Quot.sound |
| `NNJ.Props.C47_no_params` | propext, Classical.choice, Quot.sound |
| `NNJ.Props.C47_mse` | propext, Classical.choice, Quot.sound |
| `NNJ.Props.C48_sequential` | propext, Classical.choice, Quot.sound |
| `NNJ.Props.C48_two` | propext, Classical.choice, Quot.sound |
| `NNJ.Props.C48_skip` | propext, Classical.choice, Quot.sound |
| `NNJ.Props.C49_train` | propext, Classical.choice, Quot.sound |
| `NNJ.Props.C49_std` | propext, Classical.choice, Quot.sound |
| `NNJ.Props.C49_sample` | propext, Classical.choice, Quot.sound |
| `NNJ.Props.C49_sample_forgets` | propext, Classical.choice, Quot.sound |
| `NNJ.Props.C49_readme` | propext, Classical.choice, Quot.sound |
| `NNJ.Props.C49_readme_ggn` | propext, Classical.choice, Quot.sound |
| `NNJ.Props.C49_unet` | propext, Classical.choice, Quot.sound |
| `NNJ.Props.C50_target` | propext, Classical.choice, Quot.sound |
| `NNJ.Props.C50_init` | propext, Quot.sound |
| `NNJ.Props.C51_never` | propext, Classical.choice, Quot.sound |
| `NNJ.Props.C51_sequential` | propext, Classical.choice, Quot.sound |
| `NNJ.Props.C51_skip` | propext, Classical.choice, Quot.sound |
| `NNJ.Props.C51_leaf` | propext, Classical.choice, Quot.sound |
| `NNJ.Props.C51_silent` | propext, Classical.choice, Quot.sound |
| `NNJ.Props.C52_slice` | propext, Classical.choice, Quot.sound |
| `NNJ.Props.C52_others` | propext, Classical.choice, Quot.sound |
| `NNJ.Props.C52_results` | propext, Classical.choice, Quot.sound |
| `NNJ.Props.C52_val` | propext, Classical.choice, Quot.sound |
| `NNJ.Props.C52_stale` | propext, Classical.choice, Quot.sound |
| `NNJ.Props.C53_unedited` | propext, Classical.choice, Quot.sound |
| `NNJ.Props.C53_forward` | propext, Classical.choice, Quot.sound |
| `NNJ.Props.C53_forward_mode` | propext, Classical.choice, Quot.sound |
| `NNJ.Props.C53_backward` | propext, Classical.choice, Quot.sound |
| `NNJ.Props.C53_jacobian` | propext, Classical.choice, Quot.sound |
| `NNJ.Props.C53_weight` | propext, Classical.choice, Quot.sound |
| `NNJ.Props.C53_parameters` | propext, Classical.choice, Quot.sound |
| `NNJ.Props.C53_get_weight` | propext, Classical.choice, Quot.sound |
| `NNJ.Props.C53_setitem` | propext, Classical.choice, Quot.sound |
| `NNJ.Props.C53_wrong` | propext, Classical.choice, Quot.sound |
| `NNJ.Props.C54_forward_mode` | propext, Classical.choice, Quot.sound |
| `NNJ.Props.C54_val` | propext, Classical.choice, Quot.sound |
| `NNJ.Props.C54_backward` | propext, Classical.choice, Quot.sound |
| `NNJ.Props.C54_leak` | propext, Classical.choice, Quot.sound |
| `NNJ.Props.C54_original` | propext, Classical.choice, Quot.sound |
| `NNJ.Props.C55_refines` | propext, Classical.choice, Quot.sound |
| `NNJ.Props.C55_linked` | propext, Classical.choice, Quot.sound |
| `NNJ.Props.C55_live` | propext, Classical.choice, Quot.sound |
| `NNJ.Props.C55_write` | propext, Classical.choice, Quot.sound |
| `NNJ.Props.C55_shared` | propext, Classical.choice, Quot.sound |
| `NNJ.Props.C55_get` | propext, Classical.choice, Quot.sound |
| `NNJ.Props.C55_convert` | propext, Classical.choice, Quot.sound |
| `NNJ.Props.C55_witness` | propext, Classical.choice, Quot.sound |
| `NNJ.Props.C56_vjp` | propext, Classical.choice, Quot.sound |
| `NNJ.Props.C56_mjp` | propext, Classical.choice, Quot.sound |
| `NNJ.Props.C56_jacobian` | propext, Classical.choice, Quot.sound |
| `NNJ.Props.C56_softplus` | propext, Classical.choice, Quot.sound |
| `NNJ.Props.C56_l2norm` | propext, Classical.choice, Quot.sound |
| `NNJ.Props.C56_reference_act` | propext, Classical.choice, Quot.sound |
| `NNJ.Props.C57_forward` | propext, Classical.choice, Quot.sound |
| `NNJ.Props.C57_raises` | propext, Classical.choice, Quot.sound |
| `NNJ.Props.C57_malformed` | propext, Classical.choice, Quot.sound |
| `NNJ.Props.C57_empty` | propext, Classical.choice, Quot.sound |
| `NNJ.Props.C57_flatten` | propext, Classical.choice, Quot.sound |
| `NNJ.Props.C57_products` | propext, Classical.choice, Quot.sound |
| `NNJ.Props.C58_default` | propext, Classical.choice, Quot.sound |
| `NNJ.Props.C58_mode` | propext, Classical.choice, Quot.sound |
| `NNJ.Props.C58_bilinear_forward` | propext, Classical.choice, Quot.sound |
| `NNJ.Props.C58_bilinear_vjp_iff` | propext, Classical.choice, Quot.sound |
| `NNJ.Props.C58_bilinear_jacobian_iff` | propext, Classical.choice, Quot.sound |
| `NNJ.Props.C58_size_forward` | propext, Classical.choice, Quot.sound |
| `NNJ.Props.C58_size_raises` | propext, Classical.choice, Quot.sound |
| `NNJ.Props.C58_size_type` | propext, Classical.choice, Quot.sound |
| `NNJ.Props.C58_size_and_scale` | propext, Classical.choice, Quot.sound |
| `NNJ.Props.C59_layer` | propext, Classical.choice, Quot.sound |
| `NNJ.Props.C59_val` | propext, Classical.choice, Quot.sound |
| `NNJ.Props.C59_between` | propext, Classical.choice, Quot.sound |
| `NNJ.Props.C60_rows` | propext, Classical.choice, Quot.sound |
| `NNJ.Props.C60_mismatch` | propext, Classical.choice, Quot.sound |
| `NNJ.Props.C60_width` | propext, Classical.choice, Quot.sound |
| `NNJ.Props.C60_strict` | propext, Classical.choice, Quot.sound |
| `NNJ.Props.C60_rank` | propext, Classical.choice, Quot.sound |
| `NNJ.Props.C61_input` | propext, Classical.choice, Quot.sound |
| `NNJ.Props.C61_backprop` | propext, Classical.choice, Quot.sound |
| `NNJ.Props.C61_val` | propext, Classical.choice, Quot.sound |
| `NNJ.Props.C61_conv` | propext, Classical.choice, Quot.sound |
| `NNJ.Props.C62_forward` | propext, Classical.choice, Quot.sound |
| `NNJ.Props.C62_products` | propext, Classical.choice, Quot.sound |
| `NNJ.Props.C62_jacobian` | propext, Classical.choice, Quot.sound |
| `NNJ.Props.C62_skip` | propext, Classical.choice, Quot.sound |
| `NNJ.Props.C62_skip_wrong` | propext, Classical.choice, Quot.sound |
| `NNJ.Props.C63_init` | propext, Classical.choice, Quot.sound |
| `NNJ.Props.C63_stride` | propext, Classical.choice, Quot.sound |
| `NNJ.Props.C63_string` | propext, Classical.choice, Quot.sound |
| `NNJ.Props.C63_forward` | propext, Classical.choice, Quot.sound |
| `NNJ.Props.C63_products` | propext, Classical.choice, Quot.sound |
| `NNJ.Props.C63_refused` | propext, Classical.choice, Quot.sound |
| `NNJ.Props.C63_exact_iff` | propext, Classical.choice, Quot.sound |
| `NNJ.Props.C63_no_padding` | propext, Classical.choice, Quot.sound |
| `NNJ.Props.C63_positive` | propext, Classical.choice, Quot.sound |
| `NNJ.Props.C64_test` | propext, Classical.choice, Quot.sound |
| `NNJ.Props.C64_suite` | propext, Classical.choice, Quot.sound |
| `NNJ.Props.C64_nested_empty` | propext, Classical.choice, Quot.sound |
| `NNJ.Props.C64_detects_jvp_input` | propext, Classical.choice, Quot.sound |
| `NNJ.Props.C64_detects_jvp_weight` | propext, Classical.choice, Quot.sound |
| `NNJ.Props.C64_detects_vjp_input` | propext, Classical.choice, Quot.sound |
| `NNJ.Props.C64_detects_vjp_weight` | propext, Classical.choice, Quot.sound |
| `NNJ.Props.C64_detects_jmp_input` | propext, Classical.choice, Quot.sound |
| `NNJ.Props.C64_detects_jmp_weight` | propext, Classical.choice, Quot.sound |
| `NNJ.Props.C64_detects_mjp_input` | propext, Classical.choice, Quot.sound |
| `NNJ.Props.C64_detects_mjp_weight` | propext, Classical.choice, Quot.sound |
| `NNJ.Props.C64_detects_jmjTp_input` | propext, Classical.choice, Quot.sound |
| `NNJ.Props.C64_detects_jTmjp_input` | propext, Classical.choice, Quot.sound |
| `NNJ.Props.C64_detects_jmjTp_weight` | propext, Classical.choice, Quot.sound |
| `NNJ.Props.C64_detects_jmjTp_nested` | propext, Classical.choice, Quot.sound |
| `NNJ.Props.C64_detects_jTmjp_weight` | propext, Classical.choice, Quot.sound |
| `NNJ.Props.C64_blocks` | propext, Classical.choice, Quot.sound |
| `NNJ.Props.C65_input` | propext, Classical.choice, Quot.sound |
| `NNJ.Props.C65_weight` | propext, Classical.choice, Quot.sound |
| `NNJ.Props.C65_near` | propext, Classical.choice, Quot.sound |
| `NNJ.Props.C65_none` | propext, Classical.choice, Quot.sound |
| `NNJ.Props.C65_shared` | propext, Classical.choice, Quot.sound |
| `NNJ.Props.C65_suite` | propext, Classical.choice, Quot.sound |
| `NNJ.Props.C65_softplus` | propext, Classical.choice, Quot.sound |
| `NNJ.Props.C65_l2norm` | propext, Classical.choice, Quot.sound |
| `NNJ.Props.C65_l2norm_fails` | propext, Classical.choice, Quot.sound |
| `NNJ.Props.C65_detects_input` | propext, Classical.choice, Quot.sound |
| `NNJ.Props.C65_detects_weight` | propext, Classical.choice, Quot.sound |
| `NNJ.Props.C66_forward` | propext, Classical.choice, Quot.sound |
| `NNJ.Props.C66_raises` | propext, Classical.choice, Quot.sound |
| `NNJ.Props.C66_one` | propext, Classical.choice, Quot.sound |
| `NNJ.Props.C66_many` | propext, Classical.choice, Quot.sound |
| `NNJ.Props.C67_forward` | propext, Classical.choice, Quot.sound |
| `NNJ.Props.C67_input` | propext, Classical.choice, Quot.sound |
| `NNJ.Props.C67_weight` | propext, Classical.choice, Quot.sound |
| `NNJ.Props.C67_tied` | propext, Classical.choice, Quot.sound |
| `NNJ.Props.C67_state` | propext, Classical.choice, Quot.sound |
| `NNJ.Props.C67_build` | propext, Classical.choice, Quot.sound |
| `NNJ.Props.C68_forward` | propext, Classical.choice, Quot.sound |
| `NNJ.Props.C68_input` | propext, Classical.choice, Quot.sound |
| `NNJ.Props.C68_seq` | propext, Classical.choice, Quot.sound |
| `NNJ.Props.C68_value` | propext, Classical.choice, Quot.sound |
| `NNJ.Props.C68_weight` | propext, Classical.choice, Quot.sound |
| `NNJ.Props.C68_seqWeight` | propext, Classical.choice, Quot.sound |
| `NNJ.Props.C68_linear` | propext, Classical.choice, Quot.sound |
| `NNJ.Props.C69_input` | propext, Classical.choice, Quot.sound |
| `NNJ.Props.C69_weight` | propext, Classical.choice, Quot.sound |
| `NNJ.Props.C69_pools` | propext, Classical.choice, Quot.sound |
| `NNJ.Props.C69_maxpool` | propext, Classical.choice, Quot.sound |
| `NNJ.Props.C70_jvp` | propext, Classical.choice, Quot.sound |
| `NNJ.Props.C70_jmp` | propext, Classical.choice, Quot.sound |
| `NNJ.Props.C70_jmp_bias` | propext, Classical.choice, Quot.sound |
| `NNJ.Props.C70_vjp` | propext, Classical.choice, Quot.sound |
| `NNJ.Props.C70_mjp` | propext, Classical.choice, Quot.sound |
| `NNJ.Props.C70_width` | propext, Classical.choice, Quot.sound |
| `NNJ.Props.C70_jTmjp` | propext, Classical.choice, Quot.sound |
| `NNJ.Props.C71_input` | propext, Classical.choice, Quot.sound |
| `NNJ.Props.C71_weight` | propext, Classical.choice, Quot.sound |
| `NNJ.Props.C71_input_raises` | propext, Classical.choice, Quot.sound |
| `NNJ.Props.C71_weight_raises` | propext, Classical.choice, Quot.sound |
| `NNJ.Props.C71_input_weight` | propext, Classical.choice, Quot.sound |
| `NNJ.Props.C72_blocks` | propext, Classical.choice, Quot.sound |
| `NNJ.Props.C72_gaussian_weight` | propext, Classical.choice, Quot.sound |
| `NNJ.Props.C72_binary_weight` | propext, Classical.choice, Quot.sound |
| `NNJ.Props.C72_bernoulli_weight` | propext, Classical.choice, Quot.sound |
| `NNJ.Props.C72_layer` | propext, Classical.choice, Quot.sound |
| `NNJ.Props.C72_layer_bernoulli` | propext, Classical.choice, Quot.sound |
| `NNJ.Props.C72_gaussian_input` | propext, Classical.choice, Quot.sound |
| `NNJ.Props.C72_binary_input` | propext, Classical.choice, Quot.sound |
| `NNJ.Props.C72_bernoulli_input` | propext, Classical.choice, Quot.sound |
| `NNJ.Props.C72_tanh` | propext, Classical.choice, Quot.sound |
| `NNJ.Props.C73_binary` | propext, Classical.choice, Quot.sound |
| `NNJ.Props.C73_bernoulli` | propext, Classical.choice, Quot.sound |
| `NNJ.Props.C73_gaussian` | propext, Classical.choice, Quot.sound |
| `NNJ.Props.C74_ascent` | propext, Classical.choice, Quot.sound |
| `NNJ.Props.C74_ascent_bernoulli` | propext, Classical.choice, Quot.sound |
| `NNJ.Props.C74_stationary` | propext, Classical.choice, Quot.sound |
| `NNJ.Props.C74_stationary_bernoulli` | propext, Classical.choice, Quot.sound |
| `NNJ.Props.C74_newton` | propext, Classical.choice, Quot.sound |
| `NNJ.Props.C74_two_layers` | propext, Classical.choice, Quot.sound |
| `NNJ.Props.C75_same_shapes_and_exceptions` | propext, Quot.sound |
| `NNJ.Props.C75_histories` | propext, Quot.sound |
| `NNJ.Props.C75_returns_in_any_number_system` | propext, Classical.choice, Quot.sound |
| `NNJ.Props.C75_run_on_shapes` | propext, Quot.sound |
| `NNJ.Props.C75_maxpool_depends_on_the_numbers` | propext, Classical.choice, Quot.sound |
| `NNJ.Props.C76_binary_gradient` | propext, Classical.choice, Quot.sound |
| `NNJ.Props.C76_bernoulli_gradient` | propext, Classical.choice, Quot.sound |
| `NNJ.Props.C76_binary_ggn` | propext, Classical.choice, Quot.sound |
| `NNJ.Props.C76_bernoulli_ggn` | propext, Classical.choice, Quot.sound |
| `NNJ.Props.C76_regression_gradient` | propext, Classical.choice, Quot.sound |
| `NNJ.Props.C76_step_destroys_the_class` | propext, Classical.choice, Quot.sound |
| `NNJ.Props.C76_network_gradient` | propext, Classical.choice, Quot.sound |
| `NNJ.Props.C76_step_destroys_the_network` | propext, Classical.choice, Quot.sound |
| `NNJ.Props.C76_sigmoid_does_not_overflow` | propext, Classical.choice, Quot.sound |
| `NNJ.Props.C77_forward` | propext, Classical.choice, Quot.sound |
| `NNJ.Props.C77_jacobian_input` | propext, Classical.choice, Quot.sound |
| `NNJ.Props.C77_jacobian_weight` | propext, Classical.choice, Quot.sound |
| `NNJ.Props.C77_reverse_input` | propext, Classical.choice, Quot.sound |
| `NNJ.Props.C77_reverse_weight` | propext, Classical.choice, Quot.sound |
| `NNJ.Props.C77_forward_mode_input` | propext, Classical.choice, Quot.sound |
| `NNJ.Props.C77_forward_mode_weight` | propext, Classical.choice, Quot.sound |
| `NNJ.Props.C77_jTmjp_diag_raises` | propext, Classical.choice, Quot.sound |
| `NNJ.Props.C78_forward_backward_stable` | propext, Classical.choice, Quot.sound |
| `NNJ.Props.C78_bound` | propext, Classical.choice, Quot.sound |
| `NNJ.Props.C78_no_parameters_exact` | propext, Classical.choice, Quot.sound |
| `NNJ.Props.C78_linear_error` | propext, Classical.choice, Quot.sound |
| `NNJ.Props.C79_dtype_kept` | propext, Quot.sound |
| `NNJ.Props.C79_default_is_safe` | propext |
| `NNJ.Props.C79_default_is_safe_chain` | propext |
| `NNJ.Props.C79_backward_errors` | propext, Quot.sound |
| `NNJ.Props.C79_backward_returns` | propext, Quot.sound |
| `NNJ.Props.C79_likelihood` | propext, Quot.sound |
| `NNJ.Props.C79_mixed_forward` | propext, Quot.sound |
| `NNJ.Props.C79_set_weight` | propext, Quot.sound |
| `NNJ.Props.C79_get_weight` | propext, Quot.sound |
| `NNJ.Props.C79_resize_backward` | propext, Quot.sound |
| `NNJ.Props.C79_resize_training` | propext, Quot.sound |
| `NNJ.Props.C79_conv_jacobian` | propext, Quot.sound |
| `NNJ.Props.C79_loop_conv` | propext, Quot.sound |
| `NNJ.Props.C79_loop_conv_net` | propext, Quot.sound |
| `NNJ.Props.C79_default_jacobians` | propext, Quot.sound |
| `NNJ.Props.C80_backward` | propext, Quot.sound |
| `NNJ.Props.C80_one_forward` | propext, Quot.sound |
| `NNJ.Props.C80_jmjTp` | propext, Quot.sound |
| `NNJ.Props.C80_skip_jmjTp` | propext, Quot.sound |
| `NNJ.Props.C80_forward_mode` | propext |
| `NNJ.Props.C80_nested` | propext |
| `NNJ.Props.C81_same_order` | propext, Classical.choice, Quot.sound |
| `NNJ.Props.C81_forward` | propext, Quot.sound |
| `NNJ.Props.C81_exact` | propext, Quot.sound |
| `NNJ.Props.C81_gap` | propext, Classical.choice, Quot.sound |
| `NNJ.Props.C81_l2norm` | propext, Classical.choice, Quot.sound |
| `NNJ.Props.C82_vjp` | propext, Classical.choice, Quot.sound |
| `NNJ.Props.C82_vjp_weight` | propext, Classical.choice, Quot.sound |
| `NNJ.Props.C82_linear_error` | propext, Classical.choice, Quot.sound |
| `NNJ.Props.C83_diag` | propext, Classical.choice, Quot.sound |
| `NNJ.Props.C83_identity` | propext, Classical.choice, Quot.sound |
| `NNJ.Props.C83_vjp_cancels` | propext, Classical.choice, Quot.sound |
| `NNJ.Props.C84_rows` | propext, Classical.choice, Quot.sound |
| `NNJ.Props.C84_jacobian` | propext, Classical.choice, Quot.sound |
| `NNJ.Props.C84_mjp_errors` | propext, Classical.choice, Quot.sound |
| `NNJ.Props.C84_infinite_weight` | propext, Classical.choice, Quot.sound |
| `NNJ.Props.C84_columns` | propext, Classical.choice, Quot.sound |
| `NNJ.Props.C84_columns_weights` | propext, Classical.choice, Quot.sound |
| `NNJ.Props.C85_forward` | propext, Classical.choice, Quot.sound |
| `NNJ.Props.C85_jvp` | propext, Classical.choice, Quot.sound |
| `NNJ.Props.C85_jmp` | propext, Classical.choice, Quot.sound |
| `NNJ.Props.C85_vjp` | propext, Classical.choice, Quot.sound |
| `NNJ.Props.C85_mjp` | propext, Classical.choice, Quot.sound |
