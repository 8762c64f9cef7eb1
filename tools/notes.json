{
 "C01": {
  "note": "The field x1_is_x2 is excluded; x1_is_x2_not_transparent shows that it is not transparent."
 },
 "C05": {
  "note": "Input kernels without masks and with batch_axis = 0."
 },
 "C06": {
  "status": "partial",
  "note": "False in general: not_history_independent is a witness. history_independent_partial covers histories in which each function is always called with the same number of positional arguments."
 },
 "C19": {
  "status": "partial",
  "note": "False in general: default_index_error and default_wrong are witnesses. independent_partial covers calls that pass at least the required parameters by position, with all defaults equal (as in every function of the package)."
 },
 "C17": {
  "note": "lengths_not_checked records that nodes of equal type but different lengths are not rejected (zip cuts to the shortest). reduce other than the identity and tree_structure_argnum are not modelled."
 },
 "C20": {
  "note": "Keys are abstract; foldIn is assumed never to return its argument."
 },
 "C21": {
  "note": "Unknown sizes are negative numbers; None sizes raise TypeError in the code (s < 0 on None) and are not modelled."
 },
 "C25": {
  "note": "second_mask_missing(_wrong) and first_mask_missing record what happens if only one of the masks is given: the code uses the first mask for the second inputs, or raises."
 },
 "C26": {
  "status": "partial",
  "note": "transpose_entries holds for every kernel; that the result is the kernel of transposed activations is proved for kernels that are not reversed (transpose_permutes_partial). For reversed kernels it is false (reversed_wrong)."
 },
 "C31": {
  "status": "partial",
  "note": "Independence of nesting is false for diagonal_batch, which is a Python bool folded with the bit shift >>: nesting_matters, batch_requirement_lost and batch_allowance_lost are witnesses. nesting_partial covers all other requirements. parallel_flatten_raises: a Flatten branch beside a branch with a channel axis raises TypeError."
 },
 "C30": {
  "status": "partial",
  "note": "False in general: skip_branch_wrong is a witness (an Identity skip beside a local convolution declares no requirement). built_honest_partial and diagonal_run_exact_partial need the branches of every parallel to either all declare a layout requirement or none."
 },
 "C32": {
  "status": "partial",
  "note": "Composition of kernels and their independence of nesting need every layer to have an apply_fn; shape_depends_on_nesting and keys_depend_on_nesting are witnesses of the difference."
 },
 "C33": {
  "status": "partial",
  "note": "The kernel theorem needs apply_fn in every branch; missing_branch_dropped records that missing branches are dropped silently."
 },
 "C34": {
  "note": "flip_once_raises, same_key_every_time and repeat_zero record where repeat differs from writing the layers out."
 },
 "C41": {
  "note": "concat_mixed_raises records that a branch without a mask beside one with a mask makes the concatenation raise."
 },
 "C35": {
  "note": "The x1_is_x2 flag is a parameter; NaN mask constants are not modelled."
 },
 "C53": {
  "note": "Shared weights: kernel equals the covariance/NTK of the modelled apply_fn (kernel_exact) for all filters, strides, paddings, both parameterizations, both layouts. ConvLocal: formula of the kernel (kernel_formula); wrong with reversed axes and a non-symmetric filter (local_reversed_wrong). ConvTranspose and permuted dimension_numbers are not modelled."
 },
 "C54": {
  "note": "mask=None only. diag_circular_wrong: in the diagonal layout circular pooling with a window longer than the axis is wrong."
 },
 "C55": {
  "note": "mask_misplaced: mask_fn moves the batch axis elsewhere than apply_fn for batch_axis_out=1 and rank > 2."
 },
 "C56": {
  "note": "scalar_ntk_raises: the documented check for an input kernel is dead."
 },
 "C60": {
  "note": "Stated for the window reads of any weighted sum, so for convolution and pooling; lax.padtype_to_pads and jnp.pad(mode='wrap') are modelled primitives."
 },
 "C45": {
  "status": "partial",
  "note": "kernel_exact_partial: fully diagonal layout. In every layout nngp, ntk and the variances are exact (cross_and_variance_exact). offdiag_wrong: the off-diagonal entries of cov1, cov2 that non-diagonal layouts store are set to 0/1 instead of the expectation."
 },
 "C44": {
  "note": "The derivative at the kink is JAX's tie rule; kernel_exact_deriv needs no convention for positive variances. do_stabilize is covered by C51."
 },
 "C49": {
  "note": "kernel_exact assumes 4 b v < 1, which is when the expectations are finite; no condition for b <= 0."
 },
 "C47": {
  "status": "partial",
  "note": "Monomial is exact in every layout. RectifiedMonomial (rectified_entries_exact_partial, rectified_kernel_exact_partial) is exact for inputs that are not perfectly correlated; variance_divisor_zero: at perfect correlation the code divides by sin(theta) = 0, which affects every stored variance outside the fully diagonal layout and identical inputs."
 },
 "C48": {
  "note": "kernel_exact is for positive variances; zero_variance_divisor: at zero variance the code computes 0/0."
 },
 "C50": {
  "note": "diagonal_consistent_partial covers every closed-form nonlinearity except RectifiedMonomial, whose formula divides by zero there (C47.variance_divisor_zero). rectified_limit_partial: its nngp extends continuously to the diagonal, with the variance as the limit, and so does its ntk.",
  "status": "partial"
 },
 "C79": {
  "note": "The quadrature rule is a parameter: any list of points and weights exact to degree 2d, which the Gauss-Hermite rule is for deg > d. Variances at least 2e-30, the tolerance of the code."
 },
 "C61": {
  "note": "Real arithmetic; eigh, the Cholesky solver and set iteration are parameters assumed correct (Backend.Correct, inhabited by exact_correct). Train outputs for every positive semidefinite regularised kernel and, with clipped eigenvalues, every symmetric one; test outputs for positive definite ones, since singular ones divide by zero (singular_divides_by_zero)."
 },
 "C62": {
  "note": "Every symmetric kernel for train outputs, every invertible symmetric one for test outputs; any array of times for the second step."
 },
 "C63": {
  "note": "Entrywise limits along scalar times, for a positive learning rate."
 },
 "C65": {
  "note": "For get='nngp' with a non-zero regulariser the covariance at the training points at t=0 includes the regulariser (prior_train_regularised); prior_train_partial says what it is.",
  "status": "partial"
 },
 "C66": {
  "note": "history_dependent exhibits the one kind of call that depends on the history: predict_inf keeps a train kernel tuple without nngp. Keyword arguments of kernel_fn are not modelled (they are part of no cache key for train kernels).",
  "status": "partial"
 },
 "C67": {
  "note": "Assumes eigvalsh returns the largest eigenvalue of a symmetric matrix (TopEigenvalue, satisfiable: exists_top). Convergence is proved for momenta 0 <= b < 1 and all PSD kernels; above the bound the top mode is unbounded."
 },
 "C68": {
  "note": "flow and heavy_ball hold for any loss whose gradient function is its gradient, any result of predict_fn and strictly increasing times; mse_train, mse_test also prove that a result exists; agrees_with_mse compares with the closed form. result_form: the form of the result (state, array or pair) follows that of the initial values, and missing initial values or a missing test kernel raise. Assumed of odeint: it returns the values of a solution whenever one exists (OdeInt.Correct, satisfied by exactOde). t=None (infinite time) is not modelled; the trace axes must come out of the set in increasing order.",
  "status": "proved"
 },
 "C69": {
  "note": "mse_validation and gd_raises hold for all shapes and times; output shapes for gp_inference and the ensemble are part of C64.posterior, C64.ntk_ensemble, C65.ensemble_train and C65.ensemble_test.",
  "status": "proved"
 },
 "C57": {
  "note": "Kernel in all layouts for a non-negative batch axis; unit (mean) variances and idempotence for eps = 0; error branches. negative_batch_axis_wrong: with a negative batch_axis the code averages the wrong spatial axis (linear.py:2533-2534). Unmasked kernels with a tangent kernel that is not the scalar 0.",
  "status": "partial"
 },
 "C78": {
  "note": "Means with and without mask, variances without mask, the LayerNorm apply function unmasked. masked_var_wrong: with a mask every masked entry adds mean^2 to the sum of squares (requirements.py:1152); masked_var_excess is the exact value. keepdims=True only (the only use for which the variance is asked).",
  "status": "partial"
 },
 "C28": {
  "note": "All axes, layouts and either side; the kernel is that of lax.dot_general of the activations. With exactly one of the two arrays absent, one_array_raises: a call whose array has an axis neither contracted nor matched raises (no layer of the library makes such a call). Missing: contraction of the batch axis (no batch axis remains) and one array without free axes.",
  "status": "partial"
 },
 "C40": {
  "note": "FanInConcat along the channels, the batch and every spatial axis, for any number of branches in any (matching) layout and any order of spatial axes. The output shapes, None in the code, are those of init_fn. Non-channel concatenation of a scalar (rank 0) tangent kernel, which raises in the code, is excluded by a hypothesis."
 },
 "C37": {
  "note": "Networks are built from Dense, Conv, ConvTranspose, Pool, GlobalPool, Flatten, Dropout, LayerNorm, any elementwise layer, DotGeneral, Index, ImageResize, GlobalSelfAttention, Identity, FanOut, FanIn*, serial and parallel, unbounded in size; Aggregate is not in the network model."
 },
 "C77": {
  "note": "The code computes in_broadcast of the combination from out_broadcast (rules.py:128-129) and matches diagonal axes by output axis only; both are proved as counterexamples (in_broadcast_not_common, diagonal_not_common). What the combination promises about traced axes, diagonal output axes and broadcast output axes is proved.",
  "status": "partial"
 },
 "C70": {
  "note": "jax.jvp is the directional derivative; trees of arrays are a normed space."
 },
 "C71": {
  "note": "jax.jvp is the directional derivative; trees of arrays are a normed space; Python's recursion limit is a parameter of the model (a negative degree recurses until RecursionError). The code has no check of the degree."
 },
 "C72": {
  "note": "Proved for Jacobian contraction and NTK-vector products with vmap_axes=None and one output array: both satisfy the documented layout and average inner products of gradients over traced axes, hence agree, for all networks, parameters, ranks and axes; C94.implementations_agree adds structured derivatives. Also proved: a traced axis named twice (1 and -1) makes them disagree. With vmap_axes see C96.",
  "status": "partial"
 },
 "C73": {
  "note": "NTK by both implementations and NNGP: swap, symmetry and positive semidefiniteness for all outputs and axes.",
  "status": "proved"
 },
 "C74": {
  "note": "Layout and entries of the dot product for all ranks, sizes and axes, plus all error branches. canonicalize_axis is modelled as returning a sorted list (set order of CPython for small integers).",
  "status": "proved"
 },
 "C75": {
  "note": "ntk_vp is the full NTK applied to the cotangents, linear, local, adjoint under swapping inputs.",
  "status": "proved"
 },
 "C80": {
  "note": "Networks of Dense, Conv, ConvTranspose, pooling, Flatten, Dropout, LayerNorm, DotGeneral, Index, ImageResize (of spatial axes), GlobalSelfAttention, nonlinearities, FanOut, parallel, FanInSum, FanInProd and FanInConcat (any axis) of any depth, in every layout, from unmasked inputs; masked inputs (masked_swap_partial) for networks of the layers of C99, sums, products and concatenations of branches included. Missing: Aggregate, ImageResize of the batch axis, masked inputs in other layers.",
  "status": "partial"
 },
 "C81": {
  "note": "Every layer and fan-in of the network model (C80) keeps nngp and ntk of a batch with itself symmetric positive semidefinite (Gram representations; the nonlinearities through the Gaussian field with the given covariance), hence every network applied as documented does, and so does kernel_fn(x) from the inputs. Missing: as C80.",
  "status": "partial"
 },
 "C76": {
  "note": "Each rule is proved for all shapes and for every part of its declared structure (what is left after intersection with the structures of other uses): identity-like primitives, neg, zeros_like, transpose, squeeze, reshape, reduce_sum, broadcast_in_dim, rev, pad, concatenate, add/sub, mul/div, dot_general (either operand, any contracted and batch axes), conv_general_dilated (the filter; any dimension numbers, strides, padding, dilations and groups; a filter without output features is left out), reduce_window_sum (which declares structure and uses the default Jacobian). These are all the rules of rules.py. The claim is false for two of them: reshape with dimensions (reshape_dimensions_wrong), broadcast_in_dim expanding an axis (broadcast_in_dim_expanding_raises).",
  "status": "partial"
 },
 "C58": {
  "note": "Activations of both implementations, equality of activations and of kernels from equivalent patterns (any rank, any set of aggregated axes, repeated and padding edges), and the kernel of aggregated random activations. The sparse kernel is partial: spatial axes must be in logical order, because the code ignores is_reversed (sparse_reversed_wrong), and the two inputs must have equal aggregated axes; edges with a receiver must have a sender because a negative sender reads the last vertex (negative_sender_wrong). to_dense is the identity.",
  "status": "partial"
 },
 "C59": {
  "note": "kernel_averages: linear scaling, every mechanism, positional embeddings and masks, every layout with full spatial covariances. averages_exact: the kernel is that of the finite width layer for given attention weights; that the random weights of wide layers converge to these weights is not proved (no limit theorem). Square root scaling (identity mechanism; others are rejected): sqrt_kernel, for every layout, embeddings and masks; sqrt_exact: for inputs that do not depend on parameters it is the kernel of the layer of every finite width. Masked positions: zero weight except softmax with QK_std <= 0 (softmax_masked_uniform, softmax_masked_inverted).",
  "status": "partial"
 },
 "C82": {
  "note": "Selections (any index maps, with repetitions) of the examples commute with networks of Dense, Conv, ConvTranspose, pooling, Flatten, evaluation Dropout, LayerNorm not over the batch axis, DotGeneral not over the batch axis, Index of all examples, ImageResize of spatial axes, GlobalSelfAttention, nonlinearities, FanOut, parallel, FanInSum, FanInProd and FanInConcat of channels or a spatial axis (concatenation of the batch does not act per example), in every layout, from the inputs on. Masked inputs (masked_examples_partial) for networks of the layers of C99: the kernel between two examples depends neither on the rest of their batches nor on the amount of padding. Missing: Aggregate, ImageResize of the batch axis, masked inputs in other layers.",
  "status": "partial"
 },
 "C83": {
  "note": "Serial batching (C01), batching over devices (C03) and both (C04) instantiated with the kernel functions of the networks of C82: transparent, and returns whenever the batch sizes divide. masked_batching_raises: with masks and a second input a batched call for a Kernel always raises. Missing: as C82; masked inputs without a second input; other channel layouts than examples along axis 0 (nt.batch requires axis 0).",
  "status": "partial"
 },
 "C84": {
  "note": "none_is_self: for every network of the modelled layers (no masks), every input, layout and layer argument, kernel_fn(x, None) returns iff kernel_fn(x, x) does, with the same fields except cov2 (nothing assumed about shapes; none_is_self_partial adds that both return for networks applied as documented). masked_none_is_self_partial: the same with mask_constant, for Dense, Conv, pooling, global pooling, Dropout, Identity, nonlinearities and branches. Missing: the other layers with masks, and serial batching (batched_none_partial) for networks outside C83.",
  "status": "partial"
 },
 "C85": {
  "note": "All networks and inputs with NetSem (C80); masked inputs (masked_diagonal_batch_partial) for networks of the layers of C99. Missing: as C80.",
  "status": "partial"
 },
 "C86": {
  "note": "Networks of Dense, Conv, ConvTranspose, Dropout, LayerNorm, elementwise, Identity, Index, fan-in/out, optionally followed by Flatten and any rest. Example: a two-layer CNN on images. Missing: pooling of positions with known zero covariances, DotGeneral, masks.",
  "status": "partial"
 },
 "C90": {
  "note": "fn twice differentiable with polynomial growth; nngp_fn must be continuously differentiable in the covariance at full correlation (only inside the domain nothing is needed). JAX autodiff is modelled as the mathematical derivative."
 },
 "C91": {
  "note": "Variances at least 1e-15, the square root of the tolerance in the code."
 },
 "C92": {
  "note": "Convergence in probability of the channel averages (and of empirical_nngp_fn for inputs of rank 2) to nngp, uniformly over all networks whose widths exceed a bound. Fully connected networks; nonlinearities continuous, of polynomial growth, with an exact closed-form kernel.",
  "status": "proved"
 },
 "C93": {
  "note": "empirical_ntk_converges: every entry for a readout of fixed width; empirical_ntk_fn_converges: the array returned by Jacobian contraction, for any layout of the parameters as arrays; mean_ntk_converges: channel averages for wide outputs. Derivatives of nonlinearities have to be bounded.",
  "status": "proved"
 },
 "C94": {
  "note": "Proved for linear programs over any field with any number of equations and uses (Model/Structured: visit, backward pass, structure cache, compact Jacobians, labels and einsum of contract, sum_and_contract), for vmap_axes=None and one output array. structured_derivatives takes right rules as hypothesis (RulesFor); primitives_have_rules discharges it for programs whose uses of parameters are operands of the primitives of C76 or of primitives without rules. JAX's linearize and transpose rules are assumed (Linearizes, Eqn.jac). A concrete two-equation network is worked out beside the theorems."
 },
 "C95": {
  "note": "resize_kernel_exact_partial / resize_kernel_formula_partial need: spatial axes not reversed, or output sizes that read the same backwards (otherwise resize_reversed_wrong: the output kernel does not describe activations of these sizes); the method given as a string (resize_enum_raises: with an enum the kernel function raises an UnboundLocalError on every kernel). jax.image.resize is modelled by its documented weights along each axis.",
  "status": "partial"
 },
 "C96": {
  "note": "Proved for Jacobian contraction and NTK-vector products, for networks given as functions of arrays that treat examples one by one (Spec/Vmap). vmap is modelled by its documented meaning. Missing: structured derivatives with vmap_axes. none_disagree: with x2=None and a keyword argument that is a pair the two implementations differ.",
  "status": "partial"
 },
 "C97": {
  "note": "All paddings, strides, layouts and parameterizations. Positions along each axis are assumed nonempty. mask_fn of ConvTranspose is not modelled.",
  "status": "proved"
 },
 "C98": {
  "note": "apply_fn without bias; shared weights.",
  "status": "proved"
 },
 "C99": {
  "note": "padding_invisible_partial: Dense, Conv and local pooling (SAME, unit strides, fixed divisor), nonlinearities that mask their output or keep zero, Dropout (test), Identity, global pooling; layout with all pairs of positions. branched_padding_invisible_partial: the same for networks with FanOut, parallel, serial, FanInSum, FanInProd and FanInConcat along the channels in any arrangement. constant_counts_padding, diagonal_average_counts_padding and flatten_counts_padding (Flatten divides by the padded length): cases where the property fails. Missing: other layers with masks, FanInConcat along other axes; VALID and CIRCULAR padding and strides, where an example alone has other borders.",
  "status": "partial"
 },
 "C100": {
  "note": "Partial: Flatten, attention, Aggregate, FanInConcat along other axes than the channels and a nan mask constant are not covered. Branches (FanOut, parallel, FanInSum, FanInProd, FanInConcat along the channels) of any depth are covered by branched_network_padding_partial. The claim is false for padding 'VALID' (valid_pooling_sees_padding), strides other than 1 (strides_see_padding), AvgPool with normalize_edges (normalized_edges_see_padding), LayerNorm over positions (layerNorm_positions_sees_padding) and Conv with padding 'CIRCULAR' (circular_convolution_sees_padding); local pooling with padding 'CIRCULAR' raises (circular_pooling_raises).",
  "status": "partial"
 },
 "C101": {
  "note": "Entries of the empirical NNGP kernel of serial(Conv, phi, ...) converge in probability to nngp of kernel_fn, uniformly over examples and positions; also after GlobalAvgPool, GlobalSumPool and Flatten. Shared weights; any filter, stride, padding, rank.",
  "status": "proved"
 },
 "C102": {
  "note": "All sequences of Conv, Dense, nonlinearities, AvgPool, SumPool, GlobalAvgPool, GlobalSumPool and Flatten; convergence in probability of all entries of the empirical NNGP kernel to the nngp that kernel_fn of the model computes.",
  "status": "proved"
 }
}