{
 "claims": [
  {
   "property": "C01",
   "status": "proved",
   "theorems": [
    "NT.C01.serial_array_transparent",
    "NT.C01.serial_array_returns",
    "NT.C01.serial_kernel_transparent",
    "NT.C01.serial_kernel_returns",
    "NT.C01.x1_is_x2_not_transparent"
   ],
   "note": "The field x1_is_x2 is excluded; x1_is_x2_not_transparent shows that it is not transparent."
  },
  {
   "property": "C02",
   "status": "proved",
   "theorems": [
    "NT.C02.tiles",
    "NT.C02.ragged_raises",
    "NT.C02.raises_iff"
   ],
   "note": ""
  },
  {
   "property": "C03",
   "status": "proved",
   "theorems": [
    "NT.C03.parallel_array_transparent",
    "NT.C03.parallel_kernel_transparent",
    "NT.C03.device_split",
    "NT.C03.returns_iff"
   ],
   "note": ""
  },
  {
   "property": "C04",
   "status": "proved",
   "theorems": [
    "NT.C04.serial_parallel_array_transparent",
    "NT.C04.serial_parallel_kernel_transparent",
    "NT.C04.serial_parallel_array_returns"
   ],
   "note": ""
  },
  {
   "property": "C05",
   "status": "proved",
   "theorems": [
    "NT.C05.serial_kernel_input_transparent",
    "NT.C05.serial_kernel_input_returns"
   ],
   "note": "Input kernels without masks and with batch_axis = 0."
  },
  {
   "property": "C06",
   "status": "partial",
   "theorems": [
    "NT.C06.fresh_call",
    "NT.C06.history_independent_partial",
    "NT.C06.not_history_independent"
   ],
   "note": "False in general: not_history_independent is a witness. history_independent_partial covers histories in which each function is always called with the same number of positional arguments."
  },
  {
   "property": "C07",
   "status": "proved",
   "theorems": [
    "NT.C07.scan_spec",
    "NT.C07.scan_append",
    "NT.C07.scan_stacks"
   ],
   "note": ""
  },
  {
   "property": "C08",
   "status": "proved",
   "theorems": [
    "NT.C08.estimate_is_mean",
    "NT.C08.constant_draws",
    "NT.C08.running_mean"
   ],
   "note": ""
  },
  {
   "property": "C09",
   "status": "proved",
   "theorems": [
    "NT.C09.generator_prefix_consistent"
   ],
   "note": ""
  },
  {
   "property": "C10",
   "status": "proved",
   "theorems": [
    "NT.C10.invalid_raises",
    "NT.C10.valid_normalises"
   ],
   "note": ""
  },
  {
   "property": "C11",
   "status": "proved",
   "theorems": [
    "NT.C11.zip_axes_entries",
    "NT.C11.unzip_axes_entries",
    "NT.C11.default_end",
    "NT.C11.unzip_zip",
    "NT.C11.zip_unzip",
    "NT.C11.odd_raises"
   ],
   "note": ""
  },
  {
   "property": "C12",
   "status": "proved",
   "theorems": [
    "NT.C12.reverse_zipped_entries",
    "NT.C12.reverse_zipped_involutive",
    "NT.C12.reverse_zipped_shape_agrees",
    "NT.C12.reverse_zipped_list",
    "NT.C12.odd_raises",
    "NT.C12.kernel_reverse_stores",
    "NT.C12.kernel_reverse_involutive"
   ],
   "note": ""
  },
  {
   "property": "C13",
   "status": "proved",
   "theorems": [
    "NT.C13.make_2d_entries",
    "NT.C13.row_index_bijective",
    "NT.C13.make_2d_transpose"
   ],
   "note": ""
  },
  {
   "property": "C14",
   "status": "proved",
   "theorems": [
    "NT.C14.diagonal_between_entries",
    "NT.C14.odd_raises"
   ],
   "note": ""
  },
  {
   "property": "C15",
   "status": "proved",
   "theorems": [
    "NT.C15.outer_prod_entries",
    "NT.C15.outer_prod_none",
    "NT.C15.outer_prod_symm"
   ],
   "note": ""
  },
  {
   "property": "C16",
   "status": "proved",
   "theorems": [
    "NT.C16.mod_denotes",
    "NT.C16.canonicalizeAxis_denotes",
    "NT.C16.canonicalizeAxis_out_of_range",
    "NT.C16.mod_mem_canonicalizeAxis"
   ],
   "note": ""
  },
  {
   "property": "C17",
   "status": "proved",
   "theorems": [
    "NT.C17.map_structure",
    "NT.C17.mismatch_raises",
    "NT.C17.map_comp",
    "NT.C17.lengths_not_checked"
   ],
   "note": "lengths_not_checked records that nodes of equal type but different lengths are not rejected (zip cuts to the shortest). reduce other than the identity and tree_structure_argnum are not modelled."
  },
  {
   "property": "C18",
   "status": "proved",
   "theorems": [
    "NT.C18.get_none",
    "NT.C18.get_str",
    "NT.C18.get_tuple",
    "NT.C18.case_insensitive",
    "NT.C18.empty_raises",
    "NT.C18.duplicate_raises",
    "NT.C18.missing_raises"
   ],
   "note": ""
  },
  {
   "property": "C19",
   "status": "partial",
   "theorems": [
    "NT.C19.explicit_get",
    "NT.C19.independent_partial",
    "NT.C19.default_index_error",
    "NT.C19.default_wrong"
   ],
   "note": "False in general: default_index_error and default_wrong are witnesses. independent_partial covers calls that pass at least the required parameters by position, with all defaults equal (as in every function of the package)."
  },
  {
   "property": "C20",
   "status": "proved",
   "theorems": [
    "NT.C20.keys_equal_iff",
    "NT.C20.keys_equal_of_none",
    "NT.C20.second_key_of_equal",
    "NT.C20.second_key_of_different",
    "NT.C20.other_raises"
   ],
   "note": "Keys are abstract; foldIn is assumed never to return its argument."
  },
  {
   "property": "C21",
   "status": "proved",
   "theorems": [
    "NT.C21.canonicalizeIdx_means",
    "NT.C21.sliceLen_counts",
    "NT.C21.sliceShape_correct",
    "NT.C21.sliceShape_unknown_raises"
   ],
   "note": "Unknown sizes are negative numbers; None sizes raise TypeError in the code (s < 0 on None) and are not modelled."
  },
  {
   "property": "C22",
   "status": "proved",
   "theorems": [
    "NT.C22.axisAfterDot_lhs",
    "NT.C22.axisAfterDot_rhs"
   ],
   "note": ""
  },
  {
   "property": "C23",
   "status": "proved",
   "theorems": [
    "NT.C23.flatten_unflatten",
    "NT.C23.leaf_map",
    "NT.C23.replace_changes_named",
    "NT.C23.replace_current",
    "NT.C23.replace_last_wins",
    "NT.C23.replace_unknown_raises",
    "NT.C23.asdict_construct"
   ],
   "note": ""
  },
  {
   "property": "C24",
   "status": "proved",
   "theorems": [
    "NT.C24.mul_scales",
    "NT.C24.div_scales",
    "NT.C24.add_shifts",
    "NT.C24.sub_shifts",
    "NT.C24.neg_same"
   ],
   "note": ""
  },
  {
   "property": "C25",
   "status": "proved",
   "theorems": [
    "NT.C25.mask_zeroes",
    "NT.C25.mask_none",
    "NT.C25.mask_symmetric",
    "NT.C25.second_mask_missing",
    "NT.C25.mask_idempotent",
    "NT.C25.first_mask_missing",
    "NT.C25.second_mask_missing_wrong"
   ],
   "note": "second_mask_missing(_wrong) and first_mask_missing record what happens if only one of the masks is given: the code uses the first mask for the second inputs, or raises."
  },
  {
   "property": "C26",
   "status": "partial",
   "theorems": [
    "NT.C26.transpose_entries",
    "NT.C26.transpose_permutes_partial",
    "NT.C26.scalar_ntk_raises",
    "NT.C26.bad_axes_raise",
    "NT.C26.reversed_wrong"
   ],
   "note": "transpose_entries holds for every kernel; that the result is the kernel of transposed activations is proved for kernels that are not reversed (transpose_permutes_partial). For reversed kernels it is false (reversed_wrong)."
  },
  {
   "property": "C27",
   "status": "proved",
   "theorems": [
    "NT.C27.getItem_indexes",
    "NT.C27.channel_index_raises",
    "NT.C27.batch_int_raises"
   ],
   "note": ""
  },
  {
   "property": "C28",
   "status": "partial",
   "theorems": [
    "NT.C28.covariance_of_contraction_partial",
    "NT.C28.activations",
    "NT.C28.kernel_exact",
    "NT.C28.other_calls",
    "NT.C28.one_array_raises"
   ],
   "note": "All axes, layouts and either side; the kernel is that of lax.dot_general of the activations. With exactly one of the two arrays absent, one_array_raises: a call whose array has an axis neither contracted nor matched raises (no layer of the library makes such a call). Missing: contraction of the batch axis (no batch axis remains) and one array without free axes."
  },
  {
   "property": "C29",
   "status": "proved",
   "theorems": [
    "NT.C29.par_comm",
    "NT.C29.par_assoc",
    "NT.C29.par_idem",
    "NT.C29.par_greatest",
    "NT.C29.seq_assoc",
    "NT.C29.lshift_assoc",
    "NT.C29.chain_diagonal_iff",
    "NT.C29.par_diagonal_iff"
   ],
   "note": ""
  },
  {
   "property": "C30",
   "status": "partial",
   "theorems": [
    "NT.C30.built_honest_partial",
    "NT.C30.diagonal_run_exact_partial",
    "NT.C30.skip_branch_wrong"
   ],
   "note": "False in general: skip_branch_wrong is a witness (an Identity skip beside a local convolution declares no requirement). built_honest_partial and diagonal_run_exact_partial need the branches of every parallel to either all declare a layout requirement or none."
  },
  {
   "property": "C31",
   "status": "partial",
   "theorems": [
    "NT.C31.serial_req",
    "NT.C31.parallel_req",
    "NT.C31.serial_diagonal_iff",
    "NT.C31.dropout_conflict_raises",
    "NT.C31.nesting_partial",
    "NT.C31.nesting_matters",
    "NT.C31.batch_requirement_lost",
    "NT.C31.batch_allowance_lost",
    "NT.C31.parallel_flatten_raises"
   ],
   "note": "Independence of nesting is false for diagonal_batch, which is a Python bool folded with the bit shift >>: nesting_matters, batch_requirement_lost and batch_allowance_lost are witnesses. nesting_partial covers all other requirements. parallel_flatten_raises: a Flatten branch beside a branch with a channel axis raises TypeError."
  },
  {
   "property": "C32",
   "status": "partial",
   "theorems": [
    "NT.C32.serial_init",
    "NT.C32.serial_apply",
    "NT.C32.serial_kernel_partial",
    "NT.C32.kernel_nesting_partial",
    "NT.C32.apply_nesting",
    "NT.C32.serial_singleton",
    "NT.C32.serial_empty_raises",
    "NT.C32.shape_depends_on_nesting",
    "NT.C32.keys_depend_on_nesting"
   ],
   "note": "Composition of kernels and their independence of nesting need every layer to have an apply_fn; shape_depends_on_nesting and keys_depend_on_nesting are witnesses of the difference."
  },
  {
   "property": "C33",
   "status": "partial",
   "theorems": [
    "NT.C33.parallel_init",
    "NT.C33.parallel_apply",
    "NT.C33.parallel_leaf_raises",
    "NT.C33.parallel_kernel_partial",
    "NT.C33.missing_branch_dropped"
   ],
   "note": "The kernel theorem needs apply_fn in every branch; missing_branch_dropped records that missing branches are dropped silently."
  },
  {
   "property": "C34",
   "status": "proved",
   "theorems": [
    "NT.C34.repeat_init",
    "NT.C34.repeat_init_raises",
    "NT.C34.repeat_apply",
    "NT.C34.repeat_kernel_sound",
    "NT.C34.repeat_kernel_eq",
    "NT.C34.repeat_zero",
    "NT.C34.flip_once_raises",
    "NT.C34.same_key_every_time"
   ],
   "note": "flip_once_raises, same_key_every_time and repeat_zero record where repeat differs from writing the layers out."
  },
  {
   "property": "C35",
   "status": "proved",
   "theorems": [
    "NT.C35.second_moment",
    "NT.C35.layouts_agree",
    "NT.C35.second_moment_flattened",
    "NT.C35.rank_too_low",
    "NT.C35.channels_differ"
   ],
   "note": "The x1_is_x2 flag is a parameter; NaN mask constants are not modelled."
  },
  {
   "property": "C36",
   "status": "proved",
   "theorems": [
    "NT.C36.accepted_iff_allowed",
    "NT.C36.option_value",
    "NT.C36.layer_runs_iff",
    "NT.C36.defaults_used"
   ],
   "note": ""
  },
  {
   "property": "C37",
   "status": "proved",
   "theorems": [
    "NT.C37.nonlinearity_raises",
    "NT.C37.layerNorm_raises",
    "NT.C37.parametrised_marks",
    "NT.C37.keeps_mark",
    "NT.C37.others_clear",
    "NT.C37.fan_in_mark",
    "NT.C37.inputs_unmarked",
    "NT.C37.accepted_network",
    "NT.C37.rejected_network"
   ],
   "note": "Networks are built from Dense, Conv, ConvTranspose, Pool, GlobalPool, Flatten, Dropout, LayerNorm, any elementwise layer, DotGeneral, Index, ImageResize, GlobalSelfAttention, Identity, FanOut, FanIn*, serial and parallel, unbounded in size; Aggregate is not in the network model."
  },
  {
   "property": "C38",
   "status": "proved",
   "theorems": [
    "NT.C38.sum_content",
    "NT.C38.sum_perm",
    "NT.C38.layout_rejected",
    "NT.C38.shapes_rejected",
    "NT.C38.not_gaussian_rejected",
    "NT.C38.sum_of_functions"
   ],
   "note": ""
  },
  {
   "property": "C39",
   "status": "proved",
   "theorems": [
    "NT.C39.prod_content",
    "NT.C39.shapes_rejected",
    "NT.C39.prod_of_functions"
   ],
   "note": ""
  },
  {
   "property": "C40",
   "status": "proved",
   "theorems": [
    "NT.C40.spatial_content",
    "NT.C40.batch_content",
    "NT.C40.channel_content",
    "NT.C40.not_gaussian_rejected",
    "NT.C40.shapes_rejected",
    "NT.C40.layout_rejected",
    "NT.C40.spatial_exact",
    "NT.C40.batch_exact",
    "NT.C40.channel_average"
   ],
   "note": "FanInConcat along the channels, the batch and every spatial axis, for any number of branches in any (matching) layout and any order of spatial axes. The output shapes, None in the code, are those of init_fn. Non-channel concatenation of a scalar (rank 0) tangent kernel, which raises in the code, is excluded by a hypothesis."
  },
  {
   "property": "C41",
   "status": "proved",
   "theorems": [
    "NT.C41.sum_masks",
    "NT.C41.sum_masks_perm",
    "NT.C41.sum_masks_group",
    "NT.C41.concat_masks",
    "NT.C41.concat_none",
    "NT.C41.concat_mixed_raises"
   ],
   "note": "concat_mixed_raises records that a branch without a mask beside one with a mask makes the concatenation raise."
  },
  {
   "property": "C42",
   "status": "proved",
   "theorems": [
    "NT.C42.kernel_exact",
    "NT.C42.not_gaussian"
   ],
   "note": ""
  },
  {
   "property": "C43",
   "status": "proved",
   "theorems": [
    "NT.C43.sin_kernel_exact",
    "NT.C43.cos_kernel_exact",
    "NT.C43.cos_apply",
    "NT.C43.rbf_kernel_exact",
    "NT.C43.rbf_squared_exponential"
   ],
   "note": ""
  },
  {
   "property": "C44",
   "status": "proved",
   "theorems": [
    "NT.C44.kernel_exact",
    "NT.C44.kernel_exact_deriv",
    "NT.C44.relu_exact",
    "NT.C44.leaky_relu_exact",
    "NT.C44.abs_exact"
   ],
   "note": "The derivative at the kink is JAX's tie rule; kernel_exact_deriv needs no convention for positive variances. do_stabilize is covered by C51."
  },
  {
   "property": "C45",
   "status": "partial",
   "theorems": [
    "NT.C45.kernel_exact_partial",
    "NT.C45.cross_and_variance_exact",
    "NT.C45.offdiag_wrong"
   ],
   "note": "kernel_exact_partial: fully diagonal layout. In every layout nngp, ntk and the variances are exact (cross_and_variance_exact). offdiag_wrong: the off-diagonal entries of cov1, cov2 that non-diagonal layouts store are set to 0/1 instead of the expectation."
  },
  {
   "property": "C46",
   "status": "proved",
   "theorems": [
    "NT.C46.kernel_exact",
    "NT.C46.sigmoid_like_exact"
   ],
   "note": ""
  },
  {
   "property": "C47",
   "status": "partial",
   "theorems": [
    "NT.C47.monomial_kernel_exact",
    "NT.C47.monomial_degree_rejected",
    "NT.C47.rectified_entries_exact_partial",
    "NT.C47.rectified_kernel_exact_partial",
    "NT.C47.variance_divisor_zero",
    "NT.C47.rectified_degree_rejected"
   ],
   "note": "Monomial is exact in every layout. RectifiedMonomial (rectified_entries_exact_partial, rectified_kernel_exact_partial) is exact for inputs that are not perfectly correlated; variance_divisor_zero: at perfect correlation the code divides by sin(theta) = 0, which affects every stored variance outside the fully diagonal layout and identical inputs."
  },
  {
   "property": "C48",
   "status": "proved",
   "theorems": [
    "NT.C48.kernel_exact",
    "NT.C48.apply_eq",
    "NT.C48.zero_variance_divisor"
   ],
   "note": "kernel_exact is for positive variances; zero_variance_divisor: at zero variance the code computes 0/0."
  },
  {
   "property": "C49",
   "status": "proved",
   "theorems": [
    "NT.C49.kernel_exact",
    "NT.C49.kernel_exact_nonpos"
   ],
   "note": "kernel_exact assumes 4 b v < 1, which is when the expectations are finite; no condition for b <= 0."
  },
  {
   "property": "C50",
   "status": "partial",
   "theorems": [
    "NT.C50.diagonal_consistent_partial",
    "NT.C50.layouts_agree",
    "NT.C50.rectified_limit_partial"
   ],
   "note": "diagonal_consistent_partial covers every closed-form nonlinearity except RectifiedMonomial, whose formula divides by zero there (C47.variance_divisor_zero). rectified_limit_partial: its nngp extends continuously to the diagonal, with the variance as the limit, and so does its ntk."
  },
  {
   "property": "C51",
   "status": "proved",
   "theorems": [
    "NT.C51.stabilize_same",
    "NT.C51.stabilize_empty"
   ],
   "note": ""
  },
  {
   "property": "C52",
   "status": "proved",
   "theorems": [
    "NT.C52.init_scales",
    "NT.C52.kernel_formula",
    "NT.C52.kernel_exact",
    "NT.C52.param_rejected"
   ],
   "note": ""
  },
  {
   "property": "C53",
   "status": "proved",
   "theorems": [
    "NT.C53.kernel_formula",
    "NT.C53.kernel_exact",
    "NT.C53.diagonal_agrees",
    "NT.C53.param_rejected",
    "NT.C53.local_reversed_wrong"
   ],
   "note": "Shared weights: kernel equals the covariance/NTK of the modelled apply_fn (kernel_exact) for all filters, strides, paddings, both parameterizations, both layouts. ConvLocal: formula of the kernel (kernel_formula); wrong with reversed axes and a non-symmetric filter (local_reversed_wrong). ConvTranspose and permuted dimension_numbers are not modelled."
  },
  {
   "property": "C54",
   "status": "proved",
   "theorems": [
    "NT.C54.pool_kernel_formula",
    "NT.C54.pool_apply_entries",
    "NT.C54.pool_kernel_exact",
    "NT.C54.global_kernel_formula",
    "NT.C54.global_apply_entries",
    "NT.C54.global_kernel_exact",
    "NT.C54.diag_circular_wrong"
   ],
   "note": "mask=None only. diag_circular_wrong: in the diagonal layout circular pooling with a window longer than the axis is wrong."
  },
  {
   "property": "C55",
   "status": "proved",
   "theorems": [
    "NT.C55.kernel_formula",
    "NT.C55.apply_entries",
    "NT.C55.kernel_exact",
    "NT.C55.axis_rejected",
    "NT.C55.mask_follows",
    "NT.C55.mask_misplaced"
   ],
   "note": "mask_misplaced: mask_fn moves the batch axis elsewhere than apply_fn for batch_axis_out=1 and rank > 2."
  },
  {
   "property": "C56",
   "status": "proved",
   "theorems": [
    "NT.C56.kernel_formula",
    "NT.C56.test_identity",
    "NT.C56.arguments_rejected",
    "NT.C56.scalar_ntk_raises",
    "NT.C56.kernel_exact_same",
    "NT.C56.kernel_exact_distinct"
   ],
   "note": "scalar_ntk_raises: the documented check for an input kernel is dead."
  },
  {
   "property": "C57",
   "status": "partial",
   "theorems": [
    "NT.C57.kernel_normalised",
    "NT.C57.errors",
    "NT.C57.unit_mean",
    "NT.C57.unit_variances",
    "NT.C57.idempotent",
    "NT.C57.negative_batch_axis_wrong"
   ],
   "note": "Kernel in all layouts for a non-negative batch axis; unit (mean) variances and idempotence for eps = 0; error branches. negative_batch_axis_wrong: with a negative batch_axis the code averages the wrong spatial axis (linear.py:2533-2534). Unmasked kernels with a tangent kernel that is not the scalar 0."
  },
  {
   "property": "C58",
   "status": "partial",
   "theorems": [
    "NT.C58.dense_activations",
    "NT.C58.sparse_activations",
    "NT.C58.same_activations",
    "NT.C58.channelwise",
    "NT.C58.dense_kernel",
    "NT.C58.sparse_kernel_partial",
    "NT.C58.same_kernel_partial",
    "NT.C58.kernel_exact",
    "NT.C58.no_pattern",
    "NT.C58.malformed_edges",
    "NT.C58.negative_sender_wrong",
    "NT.C58.sparse_reversed_wrong"
   ],
   "note": "Activations of both implementations, equality of activations and of kernels from equivalent patterns (any rank, any set of aggregated axes, repeated and padding edges), and the kernel of aggregated random activations. The sparse kernel is partial: spatial axes must be in logical order, because the code ignores is_reversed (sparse_reversed_wrong), and the two inputs must have equal aggregated axes; edges with a receiver must have a sender because a negative sender reads the last vertex (negative_sender_wrong). to_dense is the identity."
  },
  {
   "property": "C59",
   "status": "partial",
   "theorems": [
    "NT.C59.kernel_averages",
    "NT.C59.identity_cubic",
    "NT.C59.sqrt_scaling_rejected",
    "NT.C59.masked_weight_zero",
    "NT.C59.softmax_weights",
    "NT.C59.softmax_masked_bound",
    "NT.C59.softmax_masked_uniform",
    "NT.C59.softmax_masked_inverted",
    "NT.C59.weightless_ignored",
    "NT.C59.output_mask",
    "NT.C59.symmetric",
    "NT.C59.attended_psd",
    "NT.C59.averages_exact",
    "NT.C59.sqrt_kernel",
    "NT.C59.sqrt_symmetric",
    "NT.C59.sqrt_stays_psd",
    "NT.C59.sqrt_exact"
   ],
   "note": "kernel_averages: linear scaling, every mechanism, positional embeddings and masks, every layout with full spatial covariances. averages_exact: the kernel is that of the finite width layer for given attention weights; that the random weights of wide layers converge to these weights is not proved (no limit theorem). Square root scaling (identity mechanism; others are rejected): sqrt_kernel, for every layout, embeddings and masks; sqrt_exact: for inputs that do not depend on parameters it is the kernel of the layer of every finite width. Masked positions: zero weight except softmax with QK_std <= 0 (softmax_masked_uniform, softmax_masked_inverted)."
  },
  {
   "property": "C60",
   "status": "proved",
   "theorems": [
    "NT.C60.samePadFor_eq",
    "NT.C60.circular_is_periodic",
    "NT.C60.interior_agrees"
   ],
   "note": "Stated for the window reads of any weighted sum, so for convolution and pooling; lax.padtype_to_pads and jnp.pad(mode='wrap') are modelled primitives."
  },
  {
   "property": "C61",
   "status": "proved",
   "theorems": [
    "NT.C61.train_flow",
    "NT.C61.test_flow",
    "NT.C61.flow_unique",
    "NT.C61.driven_unique",
    "NT.C61.train_flow_clipped",
    "NT.C61.singular_divides_by_zero"
   ],
   "note": "Real arithmetic; eigh, the Cholesky solver and set iteration are parameters assumed correct (Backend.Correct, inhabited by exact_correct). Train outputs for every positive semidefinite regularised kernel and, with clipped eigenvalues, every symmetric one; test outputs for positive definite ones, since singular ones divide by zero (singular_divides_by_zero)."
  },
  {
   "property": "C62",
   "status": "proved",
   "theorems": [
    "NT.C62.train_zero",
    "NT.C62.test_zero",
    "NT.C62.train_compose",
    "NT.C62.test_compose"
   ],
   "note": "Every symmetric kernel for train outputs, every invertible symmetric one for test outputs; any array of times for the second step."
  },
  {
   "property": "C63",
   "status": "proved",
   "theorems": [
    "NT.C63.train_inf",
    "NT.C63.train_limit",
    "NT.C63.test_limit"
   ],
   "note": "Entrywise limits along scalar times, for a positive learning rate."
  },
  {
   "property": "C64",
   "status": "proved",
   "theorems": [
    "NT.C64.posterior",
    "NT.C64.posterior_psd",
    "NT.C64.posterior_interpolates",
    "NT.C64.ntk_ensemble",
    "NT.C64.train_set",
    "NT.C64.ntk_needs_nngp",
    "NT.C64.missing_test_kernel_ignored"
   ],
   "note": ""
  },
  {
   "property": "C65",
   "status": "partial",
   "theorems": [
    "NT.C65.ensemble_train",
    "NT.C65.ensemble_test",
    "NT.C65.prior_test",
    "NT.C65.prior_train_partial",
    "NT.C65.limit_test",
    "NT.C65.limit_train",
    "NT.C65.inf_is_posterior",
    "NT.C65.prior_train_regularised"
   ],
   "note": "For get='nngp' with a non-zero regulariser the covariance at the training points at t=0 includes the regulariser (prior_train_regularised); prior_train_partial says what it is."
  },
  {
   "property": "C66",
   "status": "partial",
   "theorems": [
    "NT.C66.gp_history_independent",
    "NT.C66.gp_is_uncached",
    "NT.C66.first_call",
    "NT.C66.history_independent_partial",
    "NT.C66.history_dependent"
   ],
   "note": "history_dependent exhibits the one kind of call that depends on the history: predict_inf keeps a train kernel tuple without nngp. Keyword arguments of kernel_fn are not modelled (they are part of no cache key for train kernels)."
  },
  {
   "property": "C67",
   "status": "proved",
   "theorems": [
    "NT.C67.below_contracts",
    "NT.C67.below_shrinks",
    "NT.C67.above_expands",
    "NT.C67.below_converges"
   ],
   "note": "Assumes eigvalsh returns the largest eigenvalue of a symmetric matrix (TopEigenvalue, satisfiable: exists_top). Convergence is proved for momenta 0 <= b < 1 and all PSD kernels; above the bound the top mode is unbounded."
  },
  {
   "property": "C68",
   "status": "proved",
   "theorems": [
    "NT.C68.flow",
    "NT.C68.heavy_ball",
    "NT.C68.result_form",
    "NT.C68.mse_train",
    "NT.C68.mse_test",
    "NT.C68.agrees_with_mse"
   ],
   "note": "flow and heavy_ball hold for any loss whose gradient function is its gradient, any result of predict_fn and strictly increasing times; mse_train, mse_test also prove that a result exists; agrees_with_mse compares with the closed form. result_form: the form of the result (state, array or pair) follows that of the initial values, and missing initial values or a missing test kernel raise. Assumed of odeint: it returns the values of a solution whenever one exists (OdeInt.Correct, satisfied by exactOde). t=None (infinite time) is not modelled; the trace axes must come out of the set in increasing order."
  },
  {
   "property": "C69",
   "status": "proved",
   "theorems": [
    "NT.C69.mse_validation",
    "NT.C69.gd_raises",
    "NT.C69.gd_velocity_without_momentum",
    "NT.C69.gd_shapes"
   ],
   "note": "mse_validation and gd_raises hold for all shapes and times; output shapes for gp_inference and the ensemble are part of C64.posterior, C64.ntk_ensemble, C65.ensemble_train and C65.ensemble_test."
  },
  {
   "property": "C70",
   "status": "proved",
   "theorems": [
    "NT.C70.affine",
    "NT.C70.value",
    "NT.C70.gradient",
    "NT.C70.error_small",
    "NT.C70.exact_affine",
    "NT.C70.unique",
    "NT.C70.idempotent"
   ],
   "note": "jax.jvp is the directional derivative; trees of arrays are a normed space."
  },
  {
   "property": "C71",
   "status": "proved",
   "theorems": [
    "NT.C71.taylor_sum",
    "NT.C71.exact_polynomial",
    "NT.C71.degree_one",
    "NT.C71.degree_zero",
    "NT.C71.value",
    "NT.C71.negative_raises",
    "NT.C71.deep_raises",
    "NT.C71.remainder"
   ],
   "note": "jax.jvp is the directional derivative; trees of arrays are a normed space; Python's recursion limit is a parameter of the model (a negative degree recurses until RecursionError). The code has no check of the degree."
  },
  {
   "property": "C72",
   "status": "partial",
   "theorems": [
    "NT.C72.jacobian_contraction",
    "NT.C72.vector_products",
    "NT.C72.implementations_agree_partial",
    "NT.C72.bad_axis_raises",
    "NT.C72.repeated_trace_axis_disagree"
   ],
   "note": "Proved for Jacobian contraction and NTK-vector products with vmap_axes=None and one output array: both satisfy the documented layout and average inner products of gradients over traced axes, hence agree, for all networks, parameters, ranks and axes; C94.implementations_agree adds structured derivatives. Also proved: a traced axis named twice (1 and -1) makes them disagree. With vmap_axes see C96."
  },
  {
   "property": "C73",
   "status": "proved",
   "theorems": [
    "NT.C73.ntk_swap",
    "NT.C73.ntk_symmetric",
    "NT.C73.ntk_psd",
    "NT.C73.vector_products_gram",
    "NT.C73.nngp_gram"
   ],
   "note": "NTK by both implementations and NNGP: swap, symmetry and positive semidefiniteness for all outputs and axes."
  },
  {
   "property": "C74",
   "status": "proved",
   "theorems": [
    "NT.C74.ordered_dot",
    "NT.C74.all_entries",
    "NT.C74.rank_mismatch",
    "NT.C74.out_of_range",
    "NT.C74.overlap_raises",
    "NT.C74.size_mismatch"
   ],
   "note": "Layout and entries of the dot product for all ranks, sizes and axes, plus all error branches. canonicalize_axis is modelled as returning a sorted list (set order of CPython for small integers)."
  },
  {
   "property": "C75",
   "status": "proved",
   "theorems": [
    "NT.C75.entries",
    "NT.C75.matrix_vector",
    "NT.C75.linear",
    "NT.C75.local_in_cotangents",
    "NT.C75.adjoint"
   ],
   "note": "ntk_vp is the full NTK applied to the cotangents, linear, local, adjoint under swapping inputs."
  },
  {
   "property": "C76",
   "status": "partial",
   "theorems": [
    "NT.C76.jacobian_unique",
    "NT.C76.compact_determines",
    "NT.C76.meet_part",
    "NT.C76.use_sound",
    "NT.C76.identity_rules",
    "NT.C76.neg_rules",
    "NT.C76.zeros_like_rules",
    "NT.C76.transpose_rules",
    "NT.C76.squeeze_rules",
    "NT.C76.reshape_rules_partial",
    "NT.C76.reduce_sum_rules",
    "NT.C76.broadcast_in_dim_rules_partial",
    "NT.C76.rev_rules",
    "NT.C76.pad_rules",
    "NT.C76.concatenate_rules",
    "NT.C76.add_sub_rules",
    "NT.C76.mul_div_rules",
    "NT.C76.dot_general_rules",
    "NT.C76.conv_general_dilated_rules",
    "NT.C76.conv_operand_raises",
    "NT.C76.reduce_window_sum_rules",
    "NT.C76.denominator_raises",
    "NT.C76.declarations_mild",
    "NT.C76.reshape_dimensions_wrong",
    "NT.C76.broadcast_in_dim_expanding_raises"
   ],
   "note": "Each rule is proved for all shapes and for every part of its declared structure (what is left after intersection with the structures of other uses): identity-like primitives, neg, zeros_like, transpose, squeeze, reshape, reduce_sum, broadcast_in_dim, rev, pad, concatenate, add/sub, mul/div, dot_general (either operand, any contracted and batch axes), conv_general_dilated (the filter; any dimension numbers, strides, padding, dilations and groups; a filter without output features is left out), reduce_window_sum (which declares structure and uses the default Jacobian). These are all the rules of rules.py. The claim is false for two of them: reshape with dimensions (reshape_dimensions_wrong), broadcast_in_dim expanding an axis (broadcast_in_dim_expanding_raises)."
  },
  {
   "property": "C77",
   "status": "partial",
   "theorems": [
    "NT.C77.defined",
    "NT.C77.unpaired_raises",
    "NT.C77.declares_common_partial",
    "NT.C77.pairing",
    "NT.C77.sound",
    "NT.C77.commutative",
    "NT.C77.idempotent_partial",
    "NT.C77.uses_agree",
    "NT.C77.in_broadcast_not_common",
    "NT.C77.diagonal_not_common"
   ],
   "note": "The code computes in_broadcast of the combination from out_broadcast (rules.py:128-129) and matches diagonal axes by output axis only; both are proved as counterexamples (in_broadcast_not_common, diagonal_not_common). What the combination promises about traced axes, diagonal output axes and broadcast output axes is proved."
  },
  {
   "property": "C78",
   "status": "partial",
   "theorems": [
    "NT.C78.masked_mean",
    "NT.C78.plain",
    "NT.C78.masked_var_excess",
    "NT.C78.masked_var_partial",
    "NT.C78.masked_var_wrong",
    "NT.C78.layerNorm_standardises"
   ],
   "note": "Means with and without mask, variances without mask, the LayerNorm apply function unmasked. masked_var_wrong: with a mask every masked entry adds mean^2 to the sum of squares (requirements.py:1152); masked_var_excess is the exact value. keepdims=True only (the only use for which the variance is asked)."
  },
  {
   "property": "C79",
   "status": "proved",
   "theorems": [
    "NT.C79.kernel_exact"
   ],
   "note": "The quadrature rule is a parameter: any list of points and weights exact to degree 2d, which the Gauss-Hermite rule is for deg > d. Variances at least 2e-30, the tolerance of the code."
  },
  {
   "property": "C80",
   "status": "partial",
   "theorems": [
    "NT.C80.network_swap_partial",
    "NT.C80.inputs_swap_partial",
    "NT.C80.masked_swap_partial"
   ],
   "note": "Networks of Dense, Conv, ConvTranspose, pooling, Flatten, Dropout, LayerNorm, DotGeneral, Index, ImageResize (of spatial axes), GlobalSelfAttention, nonlinearities, FanOut, parallel, FanInSum, FanInProd and FanInConcat (any axis) of any depth, in every layout, from unmasked inputs; masked inputs (masked_swap_partial) for networks of the layers of C99, sums, products and concatenations of branches included. Missing: Aggregate, ImageResize of the batch axis, masked inputs in other layers."
  },
  {
   "property": "C81",
   "status": "partial",
   "theorems": [
    "NT.C81.network_psd_partial",
    "NT.C81.inputs_psd_partial"
   ],
   "note": "Every layer and fan-in of the network model (C80) keeps nngp and ntk of a batch with itself symmetric positive semidefinite (Gram representations; the nonlinearities through the Gaussian field with the given covariance), hence every network applied as documented does, and so does kernel_fn(x) from the inputs. Missing: as C80."
  },
  {
   "property": "C82",
   "status": "partial",
   "theorems": [
    "NT.C82.network_select_partial",
    "NT.C82.inputs_select_partial",
    "NT.C82.masked_examples_partial"
   ],
   "note": "Selections (any index maps, with repetitions) of the examples commute with networks of Dense, Conv, ConvTranspose, pooling, Flatten, evaluation Dropout, LayerNorm not over the batch axis, DotGeneral not over the batch axis, Index of all examples, ImageResize of spatial axes, GlobalSelfAttention, nonlinearities, FanOut, parallel, FanInSum, FanInProd and FanInConcat of channels or a spatial axis (concatenation of the batch does not act per example), in every layout, from the inputs on. Masked inputs (masked_examples_partial) for networks of the layers of C99: the kernel between two examples depends neither on the rest of their batches nor on the amount of padding. Missing: Aggregate, ImageResize of the batch axis, masked inputs in other layers."
  },
  {
   "property": "C83",
   "status": "partial",
   "theorems": [
    "NT.C83.network_serial_transparent_partial",
    "NT.C83.network_serial_returns_partial",
    "NT.C83.masked_batching_raises",
    "NT.C83.network_parallel_transparent_partial",
    "NT.C83.network_parallel_returns_partial",
    "NT.C83.network_serial_parallel_transparent_partial"
   ],
   "note": "Serial batching (C01), batching over devices (C03) and both (C04) instantiated with the kernel functions of the networks of C82: transparent, and returns whenever the batch sizes divide. masked_batching_raises: with masks and a second input a batched call for a Kernel always raises. Missing: as C82; masked inputs without a second input; other channel layouts than examples along axis 0 (nt.batch requires axis 0)."
  },
  {
   "property": "C84",
   "status": "partial",
   "theorems": [
    "NT.C84.none_is_self_partial",
    "NT.C84.none_is_self",
    "NT.C84.batched_none_partial",
    "NT.C84.masked_none_is_self_partial"
   ],
   "note": "none_is_self: for every network of the modelled layers (no masks), every input, layout and layer argument, kernel_fn(x, None) returns iff kernel_fn(x, x) does, with the same fields except cov2 (nothing assumed about shapes; none_is_self_partial adds that both return for networks applied as documented). masked_none_is_self_partial: the same with mask_constant, for Dense, Conv, pooling, global pooling, Dropout, Identity, nonlinearities and branches. Missing: the other layers with masks, and serial batching (batched_none_partial) for networks outside C83."
  },
  {
   "property": "C85",
   "status": "partial",
   "theorems": [
    "NT.C85.diagonal_batch_partial",
    "NT.C85.masked_diagonal_batch_partial"
   ],
   "note": "All networks and inputs with NetSem (C80); masked inputs (masked_diagonal_batch_partial) for networks of the layers of C99. Missing: as C80."
  },
  {
   "property": "C86",
   "status": "partial",
   "theorems": [
    "NT.C86.diagonal_spatial_partial",
    "NT.C86.diagonal_flatten_partial"
   ],
   "note": "Networks of Dense, Conv, ConvTranspose, Dropout, LayerNorm, elementwise, Identity, Index, fan-in/out, optionally followed by Flatten and any rest. Example: a two-layer CNN on images. Missing: pooling of positions with known zero covariances, DotGeneral, masks."
  },
  {
   "property": "C87",
   "status": "proved",
   "theorems": [
    "NT.C87.kernel_exact",
    "NT.C87.apply_eq",
    "NT.C87.unit_norm",
    "NT.C87.degree_rejected"
   ],
   "note": ""
  },
  {
   "property": "C88",
   "status": "proved",
   "theorems": [
    "NT.C88.kernel_exact"
   ],
   "note": ""
  },
  {
   "property": "C89",
   "status": "proved",
   "theorems": [
    "NT.C89.kernel_exact",
    "NT.C89.apply_eq"
   ],
   "note": ""
  },
  {
   "property": "C90",
   "status": "proved",
   "theorems": [
    "NT.C90.autodiff_exact",
    "NT.C90.given_derivative_exact",
    "NT.C90.price_theorem",
    "NT.C90.missing_nngp_fn",
    "NT.C90.documentation_example"
   ],
   "note": "fn twice differentiable with polynomial growth; nngp_fn must be continuously differentiable in the covariance at full correlation (only inside the domain nothing is needed). JAX autodiff is modelled as the mathematical derivative."
  },
  {
   "property": "C91",
   "status": "proved",
   "theorems": [
    "NT.C91.kernel_exact",
    "NT.C91.kernel_formula"
   ],
   "note": "Variances at least 1e-15, the square root of the tolerance in the code."
  },
  {
   "property": "C92",
   "status": "proved",
   "theorems": [
    "NT.C92.empirical_converges",
    "NT.C92.empirical_nngp_fn_converges"
   ],
   "note": "Convergence in probability of the channel averages (and of empirical_nngp_fn for inputs of rank 2) to nngp, uniformly over all networks whose widths exceed a bound. Fully connected networks; nonlinearities continuous, of polynomial growth, with an exact closed-form kernel."
  },
  {
   "property": "C93",
   "status": "proved",
   "theorems": [
    "NT.C93.empirical_ntk_converges",
    "NT.C93.mean_ntk_converges",
    "NT.C93.empirical_ntk_fn_converges"
   ],
   "note": "empirical_ntk_converges: every entry for a readout of fixed width; empirical_ntk_fn_converges: the array returned by Jacobian contraction, for any layout of the parameters as arrays; mean_ntk_converges: channel averages for wide outputs. Derivatives of nonlinearities have to be bounded."
  },
  {
   "property": "C94",
   "status": "proved",
   "theorems": [
    "NT.C94.structured_derivatives",
    "NT.C94.linearization_jacobian",
    "NT.C94.structured_derivatives_tangent",
    "NT.C94.implementations_agree",
    "NT.C94.matching_of_same",
    "NT.C94.primitives_have_rules",
    "NT.C94.unequal_traces_raise"
   ],
   "note": "Proved for linear programs over any field with any number of equations and uses (Model/Structured: visit, backward pass, structure cache, compact Jacobians, labels and einsum of contract, sum_and_contract), for vmap_axes=None and one output array. structured_derivatives takes right rules as hypothesis (RulesFor); primitives_have_rules discharges it for programs whose uses of parameters are operands of the primitives of C76 or of primitives without rules. JAX's linearize and transpose rules are assumed (Linearizes, Eqn.jac). A concrete two-equation network is worked out beside the theorems."
  },
  {
   "property": "C95",
   "status": "partial",
   "theorems": [
    "NT.C95.resize_kernel_formula_partial",
    "NT.C95.resize_spatial_formula_partial",
    "NT.C95.resize_apply_entries",
    "NT.C95.resize_kernel_exact_partial",
    "NT.C95.resize_reversed_wrong",
    "NT.C95.resize_enum_raises",
    "NT.C95.resize_refuses",
    "NT.C95.resize_mask",
    "NT.C95.resize_constant"
   ],
   "note": "resize_kernel_exact_partial / resize_kernel_formula_partial need: spatial axes not reversed, or output sizes that read the same backwards (otherwise resize_reversed_wrong: the output kernel does not describe activations of these sizes); the method given as a string (resize_enum_raises: with an enum the kernel function raises an UnboundLocalError on every kernel). jax.image.resize is modelled by its documented weights along each axis."
  },
  {
   "property": "C96",
   "status": "partial",
   "theorems": [
    "NT.C96.jacobian_vmap",
    "NT.C96.jacobian_vmap_none",
    "NT.C96.vector_products_vmap",
    "NT.C96.vmap_transparent_partial",
    "NT.C96.output_axis_missing",
    "NT.C96.examples_differ",
    "NT.C96.input_axis_missing",
    "NT.C96.none_disagree"
   ],
   "note": "Proved for Jacobian contraction and NTK-vector products, for networks given as functions of arrays that treat examples one by one (Spec/Vmap). vmap is modelled by its documented meaning. Missing: structured derivatives with vmap_axes. none_disagree: with x2=None and a keyword argument that is a pair the two implementations differ."
  },
  {
   "property": "C97",
   "status": "proved",
   "theorems": [
    "NT.C97.kernel_formula",
    "NT.C97.kernel_exact",
    "NT.C97.diagonal_agrees",
    "NT.C97.param_rejected"
   ],
   "note": "All paddings, strides, layouts and parameterizations. Positions along each axis are assumed nonempty. mask_fn of ConvTranspose is not modelled."
  },
  {
   "property": "C98",
   "status": "proved",
   "theorems": [
    "NT.C98.adjoint",
    "NT.C98.adjoint_standard"
   ],
   "note": "apply_fn without bias; shared weights."
  },
  {
   "property": "C99",
   "status": "partial",
   "theorems": [
    "NT.C99.padding_invisible_partial",
    "NT.C99.branched_padding_invisible_partial",
    "NT.C99.flatten_counts_padding",
    "NT.C99.constant_counts_padding",
    "NT.C99.diagonal_average_counts_padding"
   ],
   "note": "padding_invisible_partial: Dense, Conv and local pooling (SAME, unit strides, fixed divisor), nonlinearities that mask their output or keep zero, Dropout (test), Identity, global pooling; layout with all pairs of positions. branched_padding_invisible_partial: the same for networks with FanOut, parallel, serial, FanInSum, FanInProd and FanInConcat along the channels in any arrangement. constant_counts_padding, diagonal_average_counts_padding and flatten_counts_padding (Flatten divides by the padded length): cases where the property fails. Missing: other layers with masks, FanInConcat along other axes; VALID and CIRCULAR padding and strides, where an example alone has other borders."
  },
  {
   "property": "C100",
   "status": "partial",
   "theorems": [
    "NT.C100.finite_network_padding_partial",
    "NT.C100.branched_network_padding_partial",
    "NT.C100.circular_convolution_sees_padding",
    "NT.C100.valid_pooling_sees_padding",
    "NT.C100.normalized_edges_see_padding",
    "NT.C100.fan_in_entries",
    "NT.C100.layerNorm_positions_sees_padding",
    "NT.C100.strides_see_padding",
    "NT.C100.circular_pooling_raises"
   ],
   "note": "Partial: Flatten, attention, Aggregate, FanInConcat along other axes than the channels and a nan mask constant are not covered. Branches (FanOut, parallel, FanInSum, FanInProd, FanInConcat along the channels) of any depth are covered by branched_network_padding_partial. The claim is false for padding 'VALID' (valid_pooling_sees_padding), strides other than 1 (strides_see_padding), AvgPool with normalize_edges (normalized_edges_see_padding), LayerNorm over positions (layerNorm_positions_sees_padding) and Conv with padding 'CIRCULAR' (circular_convolution_sees_padding); local pooling with padding 'CIRCULAR' raises (circular_pooling_raises)."
  },
  {
   "property": "C101",
   "status": "proved",
   "theorems": [
    "NT.C101.conv_empirical_converges",
    "NT.C101.conv_globalPool_converges",
    "NT.C101.conv_flatten_converges"
   ],
   "note": "Entries of the empirical NNGP kernel of serial(Conv, phi, ...) converge in probability to nngp of kernel_fn, uniformly over examples and positions; also after GlobalAvgPool, GlobalSumPool and Flatten. Shared weights; any filter, stride, padding, rank."
  },
  {
   "property": "C102",
   "status": "proved",
   "theorems": [
    "NT.C102.deep_empirical_converges"
   ],
   "note": "All sequences of Conv, Dense, nonlinearities, AvgPool, SumPool, GlobalAvgPool, GlobalSumPool and Flatten; convergence in probability of all entries of the empirical NNGP kernel to the nngp that kernel_fn of the model computes."
  }
 ]
}