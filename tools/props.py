#!/usr/bin/env python3
"""Writes /verif/properties.jsonl. One call to P per property."""
import json, os
OUT = []
S = 'neural_tangents/_src/'
def P(title, statement, quantifier, why, anchors):
    OUT.append(dict(id='C%02d' % (len(OUT) + 1), title=title, statement=statement,
                    quantifier=quantifier, why_tests_cant=why,
                    anchors=[S + a for a in anchors]))

# ---- batching ------------------------------------------------------------
P('Serial batching is transparent',
  'For any kernel function whose (i, j) output entry depends only on the i-th row of x1 and the j-th row of x2, `nt.batch(kernel_fn, batch_size)` (serial, arrays in) returns, entry for entry, the array the un-batched kernel function returns: every entry is computed exactly once, by the right tile, and is written to the right place; with a `Kernel` output the per-example fields of x1 (`cov1`, `mask1`) come back in x1 order, those of x2 (`cov2`) in x2 order, and `cov2` is None iff x2 was None.',
  'all pairwise kernel functions, all dataset sizes n1, n2, all batch sizes and device counts for which the call does not raise, with and without x2',
  'the number of (n1, n2, batch size) layouts is unbounded and a transposed tile grid is invisible whenever the tile counts are 1 or the kernel is constant on tiles',
  ['batching.py:_serial.serial_fn_x1', 'batching.py:_scan', 'batching.py:_flatten_batch_dimensions', 'batching.py:_flatten_kernel_dict', 'batching.py:_get_n_batches_and_batch_sizes'])
P('Batch-size arithmetic tiles the dataset or raises',
  'Given dataset sizes, a requested batch size and a device count, batching either uses batch counts and sizes with n1 = n1_batches * n1_batch_size, n2 = n2_batches * n2_batch_size, n1_batch_size = device_count * n2_batch_size, n2_batch_size positive and at most the requested batch size, or it raises; it raises exactly when the effective batch size min(batch_size, gcd(n1, n2) // device_count) is 0 or does not divide.',
  'all n1, n2, batch_size, device_count >= 1',
  'integer arithmetic over an unbounded domain with four interacting divisibility conditions',
  ['batching.py:_get_n_batches_and_batch_sizes'])
P('Device-parallel batching is transparent',
  'Splitting x1 over devices with `nt.batch(kernel_fn, batch_size=0, device_count)` returns entry for entry what the un-batched kernel function returns; when fewer examples than devices are given only as many devices as examples are used; otherwise a dataset size not divisible by the device count raises.',
  'all pairwise kernel functions, n1, n2 and device counts',
  'a host has one fixed number of devices, so tests see one device count',
  ['batching.py:_parallel.parallel_fn_x1', 'batching.py:_parallel._get_n_per_device', 'batching.py:_flatten_batch_dimensions'])
P('Serial over parallel batching is transparent',
  'The composition used by `nt.batch` with both a batch size and several devices (serial tiling of a device-parallel function) returns entry for entry what the un-batched kernel function returns.',
  'all pairwise kernel functions, n1, n2, batch sizes and device counts for which the call does not raise',
  'two nested tilings with different tile shapes; needs several devices',
  ['batching.py:batch', 'batching.py:_serial', 'batching.py:_parallel'])
P('Batched evaluation on a Kernel input is transparent',
  'Serially batching a kernel-to-kernel function over an input `Kernel` (slicing nngp/ntk/cov1/cov2 per tile, evaluating, re-assembling) gives the same nngp, ntk, cov1 and cov2 as applying the function to the whole Kernel, for every function acting entry-wise on (i, j, cov1[i], cov2[j]).',
  'all entry-wise kernel-to-kernel functions, sizes, batch sizes',
  'unbounded family of layouts; slicing and re-assembly errors cancel for symmetric data',
  ['batching.py:_serial.serial_fn_kernel', 'utils/kernel.py:Kernel.slice'])
P('Compiled-function cache is history independent',
  'The result of a call to a device-batched function does not depend on the calls made before it through the shared compiled-function cache.',
  'all finite histories of calls (any functions, positional and keyword arguments) followed by any call',
  'the property ranges over call histories; a test fixes one history',
  ['batching.py:_get_jit_or_pmap_broadcast'])
P('Unrolled scan is a left fold with stacked outputs',
  '`_scan(f, init, xs)` threads the carry through the elements of xs left to right and returns the final carry and the outputs stacked in order: output t depends only on the first t+1 inputs, and scanning a concatenation is scanning the first part then the second from the carry reached.',
  'all step functions, initial carries and input sequences',
  'unbounded sequence length',
  ['batching.py:_scan'])
# ---- monte carlo ---------------------------------------------------------
P('Monte Carlo estimate is the exact running mean',
  '`nt.monte_carlo_kernel_fn(...)(x1, x2)` with n_samples = n returns the arithmetic mean of the n single-draw empirical kernels of the n keys derived from the PRNG key, for every n >= 1.',
  'all single-draw kernels, PRNG split functions, n >= 1',
  'unbounded n; an off-by-one in the normaliser is hidden by sampling noise',
  ['monte_carlo.py:_sample_many_kernel_fn', 'monte_carlo.py:_sample_once_kernel_fn'])
P('Monte Carlo generator is prefix consistent',
  'When n_samples is an iterable, the k-th yielded value equals what a separate call with n_samples equal to the k-th smallest requested count would return; yields happen exactly at the requested counts in increasing order, each once.',
  'all finite sets of requested sample counts, all draws',
  'ranges over all subsets of counts and every intermediate state of a generator',
  ['monte_carlo.py:_sample_many_kernel_fn.get_samples', 'monte_carlo.py:_canonicalize_n_samples'])
P('n_samples validation',
  'An integer n_samples below 1, or an iterable containing any such value, or a non-integer, raises; everything else is normalised to a set of positive counts together with a flag telling whether a generator was asked for.',
  'all integers and integer collections',
  'unbounded inputs',
  ['monte_carlo.py:_canonicalize_n_samples'])
# ---- utils ---------------------------------------------------------------
P('zip_axes / unzip_axes interleave coordinates and are mutually inverse',
  'For an array with an even number 2h of axes between start and end, the zipped array at index (lead, a1, b1, ..., ah, bh, trail) equals the input at (lead, a1..ah, b1..bh, trail), unzipping does the converse, each undoes the other, and an odd number of axes raises.',
  'all arrays, all numbers of axes, all admissible start/end',
  'unbounded rank; symmetric kernels hide a wrong interleaving',
  ['utils/utils.py:zip_axes', 'utils/utils.py:unzip_axes', 'utils/utils.py:_zip_axes'])
P('Spatial reversal reverses pair order and is an involution',
  'Reversing the zipped spatial axes maps entry (lead, a1, b1, ..., ah, bh) to position (lead, ah, bh, ..., a1, b1); applied to shapes and arrays it agrees, and applied twice it is the identity. `Kernel.reverse` flips `is_reversed`, keeps every entry\'s logical coordinates, and is an involution.',
  'all arrays and shapes of any rank, any start axis',
  'unbounded rank',
  ['utils/utils.py:reverse_zipped', 'utils/kernel.py:Kernel.reverse'])
P('make_2d flattens paired axes to a matrix consistently',
  'make_2d turns a (X, X, Y, Y, ...) laid out array into a square matrix whose row index is the row-major index of (x, y, ...) and column index that of (x\', y\', ...), so that matrix products of flattened arrays are tensor contractions.',
  'all arrays of any rank',
  'unbounded rank and sizes',
  ['utils/utils.py:make_2d', 'utils/utils.py:unzip_axes'])
P('diagonal_between takes the joint diagonal',
  'diagonal_between on axes laid out (X, Y, ..., X, Y, ...) returns the entries whose first and second half coordinates agree, in order, keeping the other axes.',
  'all arrays, ranks, start/end axes',
  'unbounded rank; goes through two reshapes and a moveaxis',
  ['utils/utils.py:diagonal_between'])
P('outer_prod lays out products as zipped pairs',
  'outer_prod(x, y) has at (lead, a1, b1, ..., ah, bh) the product op of x at (lead, a1..ah) and y at (lead, b1..bh); y = None means y = x.',
  'all arrays of any rank and all binary operations',
  'unbounded rank',
  ['utils/utils.py:outer_prod', 'utils/utils.py:interleave_ones', 'utils/utils.py:zip_flat'])
P('Axis canonicalisation',
  'mod and canonicalize_axis return, for every valid (possibly negative) axis specification, the non-negative axes denoting the same dimensions; canonicalize_axis has no repeats and an out-of-range axis raises.',
  'all ranks and axis lists', 'unbounded', ['utils/utils.py:mod', 'utils/utils.py:canonicalize_axis'])
P('Tree mapping preserves structure and rejects mismatched structure',
  'A function lifted to nested lists/tuples by nt_tree_fn returns a tree of the same structure whose leaf at each path is the function applied to the leaves of the arguments at that path; mapping composes; arguments whose node types differ raise.',
  'all nested list/tuple trees and all leaf functions',
  'unbounded depth and width',
  ['utils/utils.py:nt_tree_fn'])
P('Output selection via get',
  '`get` may be None, a string, or a tuple: a string returns exactly that field, a tuple returns a named tuple with exactly those fields in the requested order and case-insensitively, empty or duplicated requests raise, and None returns the whole object.',
  'all get values and all result dictionaries',
  'unbounded combinations of names, cases and orders',
  ['utils/utils.py:canonicalize_get', 'utils/utils.py:get_namedtuple'])
P('Output selection does not depend on how arguments are passed',
  'Calling a get-selecting function with its arguments positional or by keyword, with `get` omitted so that its default applies, gives the same selection.',
  'all positional/keyword splits of an argument list',
  'number of splits grows with arity; tests call one way',
  ['utils/utils.py:get_namedtuple'])
P('Dropout key discipline',
  'The pair of keys derived from a user key satisfies: the keys for x1 and x2 are equal iff x1 and x2 are (numerically) equal or x2 is None, provided fold_in never returns its argument; key1 is always the user\'s (first) key.',
  'all keys, key pairs and input pairs', 'ranges over all keys and both outcomes of a data dependent test',
  ['utils/utils.py:_read_keys', 'utils/utils.py:x1_is_x2', 'utils/utils.py:split_kwargs'])
P('Index canonicalisation and slice shapes',
  'canonicalize_idx expands an index with at most one Ellipsis to one entry per axis meaning the same thing, and slice_shape returns the shape of the indexed array, keeping unknown sizes on axes that are not indexed and raising when an unknown axis is indexed.',
  'all shapes with known or unknown sizes, all index tuples of integers, slices and at most one Ellipsis',
  'unbounded combinations',
  ['utils/utils.py:canonicalize_idx', 'utils/utils.py:slice_shape'])
P('Axis tracking through dot_general',
  'axis_after_dot returns the position at which a non-contracted axis of the left (or right) operand appears in the output of a general dot product whose output is laid out as batch axes, left free axes, right free axes.',
  'all ranks, batch and contracting axis lists (distinct, disjoint) and axes',
  'unbounded; wrong only for unusual orders of batch axes',
  ['utils/utils.py:axis_after_dot', 'utils/kernel.py:Kernel.dot_general'])
# ---- dataclass / Kernel --------------------------------------------------
P('Dataclass pytree round trip and replace laws',
  'Flattening a Kernel (or any such dataclass) and rebuilding it gives back the same object; static fields never change under leaf mapping; replace changes exactly the named fields, last write wins, replacing with current values is the identity, and unknown names raise; asdict followed by construction is the identity.',
  'all field lists, classifications and values', 'ranges over all dataclasses and all values',
  ['utils/dataclasses.py:dataclass', 'utils/kernel.py:Kernel'])
P('Kernel arithmetic matches arithmetic of the random function',
  'If a Kernel describes the (zero mean) output covariances and NTK of a random network f, then kernel * c describes c f, kernel / c describes f / c, -kernel describes -f, and kernel + c describes f + c where c is independent of the parameters; in particular NTK is untouched by + c.',
  'all kernels, all scalars, all random functions with the given covariance',
  'a distributional statement', ['utils/kernel.py:Kernel.__mul__', 'utils/kernel.py:Kernel.__add__', 'utils/kernel.py:Kernel.__sub__', 'utils/kernel.py:Kernel.__truediv__', 'utils/kernel.py:Kernel.__neg__'])
P('Kernel masking zeroes exactly the masked pairs',
  'Masking a Kernel sets to zero exactly those covariance entries at which either of the two examples/positions is masked, in full or diagonal and reversed or non-reversed layout, and leaves all others; masking twice with the same mask is masking once.',
  'all mask arrays, layouts, ranks', 'combinatorial explosion of layouts and ranks',
  ['utils/kernel.py:Kernel.mask', 'utils/kernel.py:Kernel._get_mask_prods', 'utils/utils.py:mask'])
P('Kernel transpose permutes logical spatial coordinates',
  'Kernel.transpose(axes) relabels spatial positions as jnp.transpose of the activations would: the entry for positions p, p\' of the transposed activations is the old entry for the un-permuted positions, for full and diagonal layouts.',
  'all permutations and ranks', 'permutations of rank <= 2 are involutions so tests on images cannot see an inverted permutation',
  ['utils/kernel.py:Kernel.transpose'])
P('Kernel indexing matches indexing of activations',
  'kernel[idx] has at positions p, p\' the covariance of the indexed activations x[idx]: batch slices, spatial integers and slices are applied in the corresponding axes in either spatial order, batch and channel axes are tracked when integer indices remove axes, and indexing the channel axis or an integer batch index raises.',
  'all index tuples, layouts, ranks, axis positions', 'unbounded combinations of layouts and indices',
  ['utils/kernel.py:Kernel.__getitem__', 'utils/utils.py:canonicalize_idx'])
P('Kernel dot_general matches contraction of activations',
  'Kernel.dot_general against deterministic arrays gives the covariance of the contracted activations: contracted spatial coordinates are summed against both operands and batch coordinates are matched, in either spatial order, and the result is never reversed.',
  'all contracting/batch axes, layouts, ranks', 'einsum index lists over unbounded rank',
  ['utils/kernel.py:Kernel.dot_general'])
# ---- requirements / combinators -----------------------------------------
P('Layout algebra laws',
  'The layout requirement objects obey the documented laws: parallel combination is commutative, associative and idempotent; serial composition is associative; and a network gets the diagonal-only layout exactly when its combined requirement says so.',
  'all requirement values', 'a finite but structural claim about operators used on arbitrarily long networks',
  ['stax/requirements.py:Bool', 'stax/requirements.py:Diagonal'])
P('Diagonal-only layout never loses information',
  'Whenever the combined requirement of a network selects the diagonal-only spatial layout, running the kernel through the layers in that layout gives exactly the entries the full layout computation gives.',
  'all sequences of layers with declared requirements they actually meet, all kernels', 'ranges over all networks',
  ['stax/requirements.py:Diagonal', 'stax/combinators.py:_get_input_req_attr', 'stax/requirements.py:_inputs_to_kernel'])
P('Requirement folding of serial and parallel',
  'The requirement computed for `serial` and `parallel` networks from their layers agrees with the composition/AND of layer requirements, does not depend on how a serial chain is nested, and conflicting dropout settings raise for every network containing the conflict.',
  'all trees of layers', 'unbounded trees', ['stax/combinators.py:_get_input_req_attr', 'stax/combinators.py:serial', 'stax/combinators.py:parallel'])
P('serial composes init, apply and kernel functions',
  '`serial(*layers)` maps shapes, parameters, activations and kernels through the layers in order; nesting serial in serial does not change apply_fn or kernel_fn, and serial() of one layer is that layer.',
  'all lists of layers', 'unbounded depth', ['stax/combinators.py:serial'])
P('parallel acts branch-wise',
  '`parallel(*layers)` applies layer i to branch i only, independently for apply and kernel functions, with one parameter set per branch and independent keys per branch.',
  'all lists of layers and inputs', 'unbounded width', ['stax/combinators.py:parallel'])
P('repeat equals n-fold serial',
  '`repeat(layer, n)` has the same apply and kernel functions as `serial(*[layer] * n)` for every n >= 0 and shape-preserving layer.',
  'all layers and n', 'unbounded n', ['stax/combinators.py:repeat'])
P('Input kernel is the empirical second-moment of the inputs',
  'The Kernel built from raw inputs holds, in whichever of the four layouts is chosen, nngp[i, j, p, q] = mean over channels of x1[i, p] x2[j, q], cov1/cov2 likewise, diagonal layouts being the corresponding entries of the full one; ntk starts at zero.',
  'all inputs, ranks, batch/channel axis positions, layouts', 'four layouts times unbounded rank times axis positions',
  ['stax/requirements.py:_cov', 'stax/requirements.py:_cov_diag_batch', 'stax/requirements.py:_inputs_to_kernel'])
P('Explicit options override inferred requirements safely',
  'User supplied layout options are accepted only if the network requirement allows them, otherwise the call raises; unspecified options get the inferred or default value.',
  'all requirement maps and option values', 'combinatorial', ['stax/requirements.py:_fuse_requirements', 'stax/requirements.py:_preprocess_kernel_fn'])
P('Gaussianity is enforced',
  'A layer that requires Gaussian inputs raises whenever the incoming kernel is not marked Gaussian; Dense/Conv re-establish the mark and nonlinearities clear it, so in any accepted network every nonlinearity is applied to the output of a parametrised linear layer (up to mark-preserving layers).',
  'all networks', 'unbounded networks', ['stax/requirements.py:requires', 'stax/elementwise.py:_elementwise', 'stax/linear.py:Dense'])
# ---- branching -----------------------------------------------------------
P('FanInSum adds covariances of independent branches',
  'FanInSum of kernels describes the sum of independent (or identical-input, Gaussian) branches: nngp, ntk and variances add entry-wise independent of the branch spatial orders; the combination is independent of branch order; at least one Gaussian branch per requirement is enforced.',
  'all lists of kernels', 'unbounded number of branches and mixed spatial orders',
  ['stax/branching.py:FanInSum', 'stax/branching.py:_preprocess_kernels_for_fan_in'])
P('FanInProd multiplies covariances and obeys the product rule for the NTK',
  'FanInProd of kernels has nngp = product of nngps and ntk = sum over branches of that branch ntk times the product of the other nngps; equal to the covariance and gradient kernel of a product of independent zero-mean functions, for any number of branches.',
  'all lists of kernels of any length', 'unbounded number of branches',
  ['stax/branching.py:FanInProd'])
P('FanInConcat concatenates or averages',
  'Concatenation along the channel axis gives the channel-weighted average of covariances and NTKs; along the batch axis gives the block matrix (with zero/cross blocks as documented); along a spatial axis the block arrangement.',
  'all lists of kernels and axes', 'unbounded', ['stax/branching.py:FanInConcat', 'stax/branching.py:_concat_kernels'])
P('Mask propagation through sums and concatenations',
  'A position of a summed output is masked iff it is masked in every branch that has a mask (branches without a mask are ignored), whatever the broadcasting of the masks, and independently of branch order and grouping; there is no mask iff no branch has one. A concatenated output carries the mask of each branch at the place of that branch.',
  'all lists of optional masks', 'unbounded', ['stax/branching.py:_sum_masks', 'stax/branching.py:_concat_masks'])
# ---- elementwise ---------------------------------------------------------
for (nm, a, desc) in [
  ('Exp', ['Exp'], 'a exp(b x)'),
  ('Sin, Cos and Rbf', ['Sin', 'Cos', 'Rbf'], 'a sin(b x + c), a cos(b x + c) and the RBF feature map'),
  ('ABRelu family', ['ABRelu', 'Relu', 'LeakyRelu', 'Abs', '_sqrt', '_arctan2'], 'a min(x, 0) + b max(x, 0)'),
  ('Sign', ['Sign'], 'sign(x)'),
  ('Erf and sigmoid-like', ['Erf', 'Sigmoid_like'], 'a erf(b x) + c'),
  ('Monomial and RectifiedMonomial', ['Monomial', 'RectifiedMonomial', '_double_factorial'], 'x^d and x^d [x >= 0]'),
  ('Polynomial', ['Polynomial'], 'arbitrary polynomials'),
  ('Gaussian', ['Gaussian'], 'a exp(b x^2)'),
]:
  P('%s kernel equals the Gaussian expectation' % nm,
    'For the nonlinearity %s the analytic nngp returned for input covariances (q11, q12, q22) equals E[phi(u) phi(v)] for a centred Gaussian pair (u, v) with those covariances, and the factor multiplying the incoming ntk equals E[phi\'(u) phi\'(v)], including the degenerate cases (zero variances, perfectly correlated inputs) the code special-cases.' % desc,
    'all positive semidefinite 2x2 input covariances and all parameters of the nonlinearity',
    'a statement about exact integrals over a continuum of covariances; Monte Carlo tests have noise and miss degenerate points',
    ['stax/elementwise.py:' + s for s in a])
P('Nonlinearity kernels are consistent on the diagonal',
  'For every analytic nonlinearity the variance (cov1/cov2) update equals the covariance (nngp) update evaluated at equal inputs, so the kernel of a point with itself is its variance.',
  'all analytic nonlinearities, all variances', 'continuum of inputs, many nonlinearities, numerically special-cased branches',
  ['stax/elementwise.py', 'stax/requirements.py:get_diagonal_outer_prods'])
P('do_stabilize does not change the result',
  'For homogeneous nonlinearities rescaling by the maximum before and after (do_stabilize) gives the same kernel as the direct formula.',
  'all kernels with positive maximum', 'real analysis identity', ['stax/elementwise.py:ABRelu'])
# ---- linear --------------------------------------------------------------
P('Dense kernel equals the exact covariance and NTK over random weights',
  'For Dense with independent zero-mean unit-variance parameters, E over weights and biases of output products equals W_std^2 K + b_std^2, and the output parameter-gradient inner product plus back-propagated input NTK equals the returned ntk, in both parameterisations.',
  'all input dimensions, inputs, parameter distributions with given two moments, W_std, b_std', 'distributional; continuum of inputs',
  ['stax/linear.py:Dense', 'stax/linear.py:_affine'])
P('Convolution kernel equals the exact covariance of the convolution',
  'For Conv with any filter shape, stride and padding the kernel at output positions p, p\' is W_std^2 times the average over filter offsets f of the input kernel at (p s + f, p\' s + f) with zeros (VALID/SAME) or wrap-around (CIRCULAR) outside, plus b_std^2; diagonal-layout convolution agrees with the diagonal of the full one.',
  'all filter shapes, strides, paddings, spatial ranks, kernels', 'unbounded ranks; shift/stride errors cancel for stationary inputs',
  ['stax/linear.py:_Conv', 'stax/linear.py:_conv_kernel_full_spatial_shared', 'stax/linear.py:_conv_kernel_full_spatial_loop', 'stax/linear.py:_conv_kernel_diagonal_spatial', 'stax/linear.py:_same_pad_for_filter_shape'])
P('Pooling kernels equal covariances of pooled activations',
  'AvgPool/SumPool (any window, stride, padding, with or without edge normalisation) and GlobalAvgPool/GlobalSumPool kernels equal the covariance of the pooled activations.',
  'all windows, strides, paddings, ranks, kernels', 'unbounded ranks', ['stax/linear.py:_Pool', 'stax/linear.py:_pool_kernel', 'stax/linear.py:_GlobalPool', 'stax/linear.py:_normalize'])
P('Flatten kernel is the mean over positions',
  'Flatten maps the kernel to the average over spatial positions of the equal-position entries, the exact second moment of the flattened activations per feature, in full and diagonal layout.',
  'all ranks and kernels', 'unbounded ranks', ['stax/linear.py:Flatten'])
P('Dropout kernel equals the exact second moment',
  'With independent keep masks of the given rate, the covariance of dropped activations equals the input kernel with exactly the same-example same-position entries divided by rate; evaluation mode is the identity.',
  'all rates in (0, 1], all layouts, all kernels', 'distributional, four layouts', ['stax/linear.py:Dropout', 'stax/linear.py:_diag_mul'])
P('LayerNorm kernel normalises variances',
  'LayerNorm divides each covariance entry by the geometric mean of the corresponding variances (plus eps) so that normalised variances are 1 (when eps = 0), and applying it twice is applying it once.',
  'all kernels with positive variances, all axes', 'continuum of inputs', ['stax/linear.py:LayerNorm'])
P('Aggregate dense and sparse implementations agree',
  'Graph aggregation with a dense adjacency matrix and with the equivalent sender/receiver edge list gives the same activations and the same kernel, equal to A^T K A.',
  'all graphs (including repeated edges and padding edges), all kernels, all aggregated axes', 'unbounded graphs',
  ['stax/linear.py:Aggregate'])
P('Attention kernel is a well-formed bilinear map',
  'GlobalSelfAttention with linear scaling and identity attention computes G K G^T averages with the documented constants, symmetric in the two inputs; masked positions receive zero weight.',
  'all kernels and masks', 'continuum', ['stax/linear.py:GlobalSelfAttention'])
P('SAME and CIRCULAR padding arithmetic',
  'Explicit circular padding followed by VALID convolution equals convolution of the periodic extension with the same output size as SAME.',
  'all sizes, strides, filter sizes', 'modular arithmetic on unbounded sizes', ['stax/linear.py:_same_pad_for_filter_shape'])
# ---- predict -------------------------------------------------------------
P('Closed-form MSE training dynamics solve the gradient flow',
  'gradient_descent_mse(k_train_train, y)(t, fx0) is, for all t, the solution of d f/dt = - lr K (f - y) / normaliser with f(0) = fx0, and the test output follows d f_test/dt = - lr K_td (f - y)/ normaliser.',
  'all symmetric kernels (including singular), targets, initial outputs, times', 'an ODE identity for all t and all matrices',
  ['predict.py:gradient_descent_mse', 'predict.py:_get_fns_in_eigenbasis', 'predict.py:_make_expm1_fn', 'predict.py:_make_inv_expm1_fn'])
P('Closed-form dynamics start at the initial outputs and form a semigroup',
  'At t = 0 the returned outputs are the initial ones, and evolving to s then to t equals evolving to s + t.',
  'all kernels, targets, times', 'continuum', ['predict.py:gradient_descent_mse'])
P('Infinite-time prediction is the limit of finite-time predictions',
  'For positive definite train kernel the t = None answer is the limit of the t answers as t grows; train outputs converge to the targets and test outputs to fx_test + K_td K_dd^-1 (y - fx_train).',
  'all positive definite kernels', 'limits', ['predict.py:gradient_descent_mse'])
P('GP inference is the Gaussian posterior',
  'gp_inference with nngp returns the conditional mean and covariance of the joint Gaussian given noisy targets: mean solves the regularised normal equations, covariance is the Schur complement (positive semidefinite, zero at noiseless training points).',
  'all positive definite kernels and regularisers', 'continuum', ['predict.py:gp_inference', 'predict.py:_get_cho_solve', 'predict.py:_add_diagonal_regularizer'])
P('Ensemble predictions interpolate prior and posterior',
  'gradient_descent_mse_ensemble mean and covariance at t = 0 are the prior mean and covariance and tend, as t grows, to the t = None result; at t = None with get = nngp they equal gp_inference.',
  'all kernels, times', 'limits over a continuum', ['predict.py:gradient_descent_mse_ensemble'])
P('Prediction caches are history independent',
  'The predict function returned by gradient_descent_mse_ensemble / gp_inference gives the same answer whatever sequence of get/t queries preceded it, although it caches train kernels and decompositions.',
  'all query histories', 'ranges over histories', ['predict.py:gradient_descent_mse_ensemble', 'predict.py:gp_inference'])
P('Maximum learning rate separates convergence from divergence',
  'For gradient descent on MSE with the returned bound, every smaller positive learning rate contracts every mode of the train error, and larger ones expand the top mode.',
  'all positive semidefinite kernels, momenta', 'for all steps and all kernels', ['predict.py:max_learning_rate'])
P('Gradient descent ODE right-hand side',
  'gradient_descent integrates exactly d f/dt = -lr K grad L(f) (or the heavy-ball system with momentum); for MSE loss it is the same ODE the closed form solves.',
  'all losses, kernels, states', 'continuum', ['predict.py:gradient_descent'])
P('Input validation of predictors',
  'Predictors raise when the initial outputs and kernels have inconsistent test arguments, and otherwise output shapes are as documented.',
  'all shapes', 'combinatorial', ['predict.py:_check_inputs', 'predict.py:_get_fx_test_shape', 'predict.py:_get_axes'])
# ---- empirical -----------------------------------------------------------
P('linearize is the first-order Taylor polynomial',
  'linearize(f, params)(p, x) is affine in p, equals f at p = params, has the same parameter gradient there, and is exact when f is affine in its parameters.',
  'all differentiable f and all p', 'continuum', ['empirical.py:linearize'])
P('taylor_expand is the Taylor polynomial of the stated degree',
  'taylor_expand(f, params, d) equals sum over k <= d of the k-th directional derivative over k!, is exact for polynomials of degree <= d, degree 1 equals linearize and degree 0 is constant; negative degree raises.',
  'all smooth f, degrees', 'unbounded degree', ['empirical.py:taylor_expand'])
P('The empirical NTK implementations agree',
  'Jacobian contraction, NTK-vector products and structured derivatives return the same array, J1 J2^T contracted over parameters with the requested trace and diagonal axes, for all functions.',
  'all functions, inputs, trace and diagonal axes', 'continuum; combinations of axes', ['empirical.py:_jacobian_contraction_ntk_fn', 'empirical.py:_ntk_vector_products_ntk_fn', 'empirical.py:_structured_derivatives_ntk_fn', 'empirical.py:_trace_and_diagonal'])
P('Empirical kernels are symmetric positive semidefinite',
  'empirical NTK and NNGP for x1 = x2 are symmetric positive semidefinite Gram matrices, and swapping inputs transposes the result.',
  'all functions and inputs', 'continuum', ['empirical.py:empirical_ntk_fn', 'empirical.py:empirical_nngp_fn'])
P('Order-preserving dot_general',
  'The internal dot product used by empirical kernels returns batch axes at their original positions (not moved to the front) and contracts the stated axes.',
  'all ranks and axis lists', 'unbounded rank', ['empirical.py:_dot_general', 'empirical.py:_get_res_batch_dims', 'empirical.py:_get_dims'])
P('NTK-vector products',
  'empirical_ntk_vp_fn(x1, x2, params)(v) is the NTK matrix applied to v, linear in v.',
  'all functions and cotangents', 'continuum', ['empirical.py:empirical_ntk_vp_fn'])
P('Structured-derivative rules give true Jacobians',
  'For each primitive rule declaring Jacobian structure (identity blocks, diagonal axes, constant blocks) expanding the compact form gives the full Jacobian of the primitive.',
  'all shapes and inputs of each primitive', 'unbounded ranks', ['utils/rules.py:_dot_general_j', 'utils/rules.py:_mul_j', 'utils/rules.py:_reduce_sum_j', 'utils/rules.py:_transpose_j', 'utils/rules.py:Structure'])
P('Structure intersection is a sound meet',
  'The combination of structure declarations used when cotangents meet declares only structure both sides have, and is idempotent and commutative on what it promises.',
  'all structures', 'unbounded axis lists', ['utils/rules.py:Structure.__and__'])
P('Masked mean and variance',
  'Layer-normalisation statistics over masked inputs are the mean and variance over the unmasked entries only.',
  'all inputs, masks, axes', 'continuum', ['stax/requirements.py:mean_and_var'])
P('Elementwise numerical kernel quadrature is symmetric and exact on its rule',
  'ElementwiseNumerical equals the Gauss-Hermite quadrature of the Gaussian expectation and is exact whenever the quadrature rule integrates the polynomial exactly.',
  'all activation functions, rules', 'continuum', ['stax/elementwise.py:ElementwiseNumerical'])
P('Symmetry of analytic kernels under input swap',
  'Swapping the two inputs of any network transposes batch axes and swaps paired spatial axes of nngp and ntk and swaps cov1 with cov2.',
  'all networks built of the modelled layers, all inputs', 'ranges over all networks', ['stax/combinators.py:serial', 'stax/elementwise.py', 'stax/linear.py'])
P('Positive semidefiniteness is preserved by layers',
  'If the input kernel is positive semidefinite then so are the nngp and ntk produced by any composition of the modelled layers.',
  'all networks, all finite datasets', 'ranges over all networks and data sizes', ['stax/linear.py:Dense', 'stax/elementwise.py', 'stax/branching.py'])
P('Kernels treat examples independently',
  'For any network in evaluation mode, the kernel of selected examples (a slice, a permutation, repetitions) of two batches is the same selection from the kernel of the whole batches: an entry depends on the two examples it concerns and not on the rest of the batch.',
  'all networks whose layers do not mix examples, all batches, all selections', 'ranges over all networks and index selections', ['stax/combinators.py:serial', 'stax/linear.py', 'stax/elementwise.py', 'stax/requirements.py:_inputs_to_kernel'])
P('Batching the kernel function of a network',
  'For any network in evaluation mode, nt.batch of its kernel_fn with serial batching returns the kernel that kernel_fn returns on the whole batches, for every batch size that divides them.',
  'all networks whose layers do not mix examples, all batches, batch sizes and device counts', 'ranges over all networks', ['batching.py:_serial', 'stax/combinators.py:serial', 'stax/requirements.py:_preprocess_kernel_fn'])

P('Omitting the second input',
  'For any network, kernel_fn(x, None) and kernel_fn(x, x) return the same nngp, ntk, cov1 and static fields; cov2 of the first is None and cov2 of the second equals cov1. Serial batching of kernel_fn(x, None) agrees with it as well.',
  'all networks built of the modelled layers, all inputs', 'ranges over all networks', ['stax/requirements.py:_inputs_to_kernel', 'stax/combinators.py:serial', 'batching.py:_serial'])
P('diagonal_batch changes what is stored and not the values',
  'For any network, kernels computed with diagonal_batch=True and diagonal_batch=False have equal nngp and ntk, and the within-input covariances of the first are the diagonal over examples of those of the second.',
  'all networks built of the modelled layers, all inputs', 'ranges over all networks', ['stax/requirements.py:_inputs_to_kernel', 'stax/requirements.py:Diagonal', 'stax/combinators.py:serial'])
P('diagonal_spatial layout of networks',
  'For any network of layers that keep positions apart, the kernel computed with diagonal_spatial=True holds exactly the equal-position entries of the kernel computed with diagonal_spatial=False; if the network continues with Flatten and arbitrary layers, both layouts give the same kernel.',
  'all networks built of the modelled layers, all inputs', 'ranges over all networks', ['stax/requirements.py:Diagonal', 'stax/linear.py:_Conv', 'stax/linear.py:Flatten', 'stax/combinators.py:serial'])

P('Hermite kernel equals the Gaussian expectation',
  'For unit variances (as the layer documents) the kernel of Hermite(n) is the expectation of products of the normalised n-th Hermite polynomial over Gaussian pairs, its NTK factor that of the derivatives; the polynomial has unit norm; negative degrees are rejected.',
  'all degrees, all kernels of unit variance, all layouts', 'unbounded degree; continuum of covariances', ['stax/elementwise.py:Hermite'])
P('Gabor kernel equals the Gaussian expectation',
  'The closed forms used by Gabor for nngp, ntk and variances equal the Gaussian expectations of exp(-x^2) sin(x) and of its derivative.',
  'all non-negative variances and covariances, all layouts', 'continuum', ['stax/elementwise.py:Gabor'])
P('Gelu kernel equals the Gaussian expectation',
  'The closed forms used by Gelu for nngp, ntk and variances equal the Gaussian expectations of x Phi(x) and of its derivative.',
  'all non-negative variances and covariances, all layouts', 'continuum', ['stax/elementwise.py:Gelu'])

P('Automatic tangent kernel of user-defined nonlinearities',
  'If nngp_fn given to Elementwise is the Gaussian expectation of fn(u) fn(v), then the NTK the layer derives by automatic differentiation with respect to the covariance equals the NTK multiplied by the expectation of fn\'(u) fn\'(v); with d_nngp_fn given the same holds without differentiation; without nngp_fn the kernel function raises NotImplementedError.',
  'all twice differentiable functions of polynomial growth, all kernels of positive variance, all layouts', 'ranges over all functions and a continuum of covariances', ['stax/elementwise.py:Elementwise', 'stax/elementwise.py:_elementwise'])
P('ExpNormalized kernel',
  'For gamma >= 0 the kernel of ExpNormalized is the Gaussian expectation of an exponential function of the normalised activations, its NTK factor that of the derivatives, with or without clipping; with shift=-1 variances are unchanged.',
  'all gamma, shift, all kernels of variance at least 1e-15, all layouts', 'continuum', ['stax/elementwise.py:ExpNormalized'])

P('Wide random networks approach the analytic kernel',
  'For a fully connected network of any depth with parameters drawn by init_fn, the empirical NNGP kernel of apply_fn converges in probability to the nngp returned by kernel_fn: for every tolerance and every probability there is a width such that all networks whose layers are all at least that wide are within the tolerance with that probability, in either parameterization.',
  'all depths, widths, parameterizations, W_std, b_std, all continuous nonlinearities of polynomial growth with an exact kernel, all inputs', 'a limit statement over random parameters', ['stax/linear.py:Dense', 'stax/elementwise.py:_elementwise', 'stax/combinators.py:serial', 'empirical.py:empirical_nngp_fn', 'monte_carlo.py:monte_carlo_kernel_fn'])

P('Wide random networks approach the analytic NTK',
  'For a fully connected network of any depth with parameters drawn by init_fn and a readout of any fixed width, the empirical NTK (the inner products of the gradients of outputs with respect to all parameters, as computed by empirical_ntk_fn) converges in probability to the ntk returned by kernel_fn as the hidden layers grow: for every tolerance and probability there is a width such that all networks whose hidden layers are at least that wide are within the tolerance with that probability; different output channels become orthogonal. It also holds on average over channels for wide outputs with a final nonlinearity.',
  'all depths, widths, both parameterizations, W_std, b_std, inputs; all nonlinearities of polynomial growth with bounded derivative that are smooth, or differentiable except at countably many points when the layers are random and the inputs nonzero or biases present', 'a limit statement over random parameters', ['stax/linear.py:Dense', 'stax/elementwise.py:_elementwise', 'stax/combinators.py:serial', 'empirical.py:empirical_ntk_fn', 'monte_carlo.py:monte_carlo_kernel_fn'])

P('Structured derivatives compute the empirical NTK',
  'For two networks whose parameters enter their linearizations through primitives with correct rules (or without rules), any number of times, the structured-derivatives implementation returns the contraction over all parameters of the two Jacobians with the requested traced and diagonal axes, the same array as Jacobian contraction and NTK-vector products; the backward pass accumulates the Jacobian of the output with respect to each primitive, and intersecting the structures of several uses of a parameter loses nothing. If the structures of the two networks have different numbers of axes in common it raises.',
  'all linear programs (any number and order of equations, fan-out of variables and parameters), shapes, traced and diagonal axes', 'unbounded programs and shapes, all parameter values', ['empirical.py:_structured_derivatives_ntk_fn', 'empirical.py:_backward_pass', 'empirical.py:_get_vars_needing_cts_in', 'empirical.py:_backprop_step', 'utils/rules.py:get_structure_cache', 'utils/rules.py:Structure'])

P('ImageResize kernels',
  'If the input kernel of ImageResize holds the channel averages of second moments and tangent kernels of random activations, the output kernel holds those of the activations resized by apply_fn, whichever axes (batch, spatial) are resized, in each layout the declared requirements allow; the method may be given by name or as jax.image.ResizeMethod; methods other than linear and nearest and resizing the channel axis raise. An output is masked if and only if all inputs that contribute to it are masked. Constant channels stay constant.',
  'all shapes, sizes, numbers of axes, axis positions, layouts, distributions of activations, masks', 'ranges over all shapes, distributions and layouts', ['stax/linear.py:ImageResize'])

P('vmap_axes does not change the empirical NTK',
  'For networks that treat the examples along the axes named by vmap_axes one by one, each implementation of the empirical NTK returns the same array with vmap_axes as without: all negative or non-negative axes, mapped keyword arguments, different numbers of first and second examples, traced and diagonal axes, x2=None meaning x2=x1. Naming axes of inputs but not of the output, mapped inputs with different numbers of examples, and naming only an axis of the output of size above 1 raise ValueError.',
  'all networks, parameters, shapes, ranks, axes, keyword arguments', 'ranges over all networks, shapes and axes', ['empirical.py:_jacobian_contraction_ntk_fn', 'empirical.py:_ntk_vector_products_ntk_fn', 'empirical.py:_get_args', 'empirical.py:_get_f_params', 'empirical.py:_canonicalize_axes', 'empirical.py:_expand_dims', 'empirical.py:_squeeze'])

P('ConvTranspose kernels',
  'The kernel of ConvTranspose holds W_std ** 2 times the average over filter entries of the input kernel at the positions that meet the entry at the two outputs, plus b_std ** 2, for SAME, VALID and CIRCULAR padding, any filter sizes and strides, in the full and the diagonal layout and both orders of spatial axes; if the input kernel is that of random activations, the result is the kernel (NNGP and NTK) of the outputs of apply_fn with parameters drawn by init_fn, in both parameterizations. The diagonal layout holds the same covariances as the full one. Unsupported parameterizations raise.',
  'all filter sizes, strides, paddings, nonempty positions, numbers of spatial axes, layouts, distributions of activations', 'ranges over all shapes, distributions and layouts', ['stax/linear.py:ConvTranspose', 'stax/linear.py:_Conv', 'stax/linear.py:_conv_kernel_full_spatial_transpose', 'stax/linear.py:_conv_kernel_diagonal_spatial_transpose', 'stax/linear.py:_pool_transpose', 'stax/linear.py:_same_pad_for_filter_shape_transpose'])

P('ConvTranspose is the transpose of Conv',
  'Let Conv and ConvTranspose have the same filter shape, strides, padding and axes and let the filters of one be those of the other, mirrored and with channels swapped. Then applying Conv to arrays of the shape of the outputs of ConvTranspose returns arrays of the shape of its inputs, and the inner product of ConvTranspose(x) with y is that of x with Conv(y), up to the explicit scale factors of the parameterization; in the standard parameterization with equal width factors there is none.',
  'all filter sizes, strides, paddings, nonempty positions, channels, parameters, inputs', 'ranges over all shapes and values', ['stax/linear.py:ConvTranspose', 'stax/linear.py:Conv', 'stax/linear.py:_same_pad_for_filter_shape_transpose', 'stax/linear.py:_same_pad_for_filter_shape'])

P('Padding and masking examples does not change their kernels',
  'Let examples of different spatial sizes be padded to a common shape with a value m that occurs nowhere else, in one or both batches. Then kernel_fn(x1, x2, mask_constant=m) of a network of layers that support masking succeeds, its entries (nngp, ntk, cov1, cov2) for any pair of examples at positions of these examples are those of kernel_fn of the two examples alone, without padding and without mask_constant, its entries for padding are zero, and its masks mark exactly the padding; after global pooling the kernel of two examples is that of the examples alone.',
  'all networks (any depth, layer arguments), batches, ranks, axis positions, sizes and paddings of the examples, input values', 'ranges over all networks, sizes of examples and values', ['stax/requirements.py:supports_masking', 'stax/requirements.py:_get_masked_array', 'stax/requirements.py:mean_and_var', 'stax/linear.py:_pool_mask', 'stax/linear.py:_GlobalPool', 'stax/linear.py:_Conv', 'stax/linear.py:_Pool', 'stax/linear.py:Dense', 'utils/kernel.py:Kernel.mask', 'stax/combinators.py:serial'])

P('Finite networks ignore padding',
  'Take a batch of examples of different spatial sizes, padded with mask_constant to a common shape. apply_fn(params, x, mask_constant=m) of a network of Dense, Conv, pooling, elementwise, Dropout (test), Identity and global pooling layers returns a MaskedArray whose mask marks exactly the padding. At the positions of an example its entries are those that apply_fn(params, y) returns for that example alone, without padding or mask. unmask_fn(apply_fn) returns the same entries and zeros at the padding.',
  'all batches, ranks, sizes and paddings of the examples, mask constants, positions of batch and channel axes, parameters, nonlinearities, and depths of the network',
  'The padding could leak at any layer for some combination of sizes, windows, biases and nonlinearities with a nonzero value at zero; tests compare a few shapes.',
  ['neural_tangents/_src/stax/requirements.py:supports_masking', 'neural_tangents/_src/stax/requirements.py:_get_masked_array', 'neural_tangents/_src/stax/requirements.py:unmask_fn', 'neural_tangents/_src/stax/requirements.py:mean_and_var', 'neural_tangents/_src/stax/linear.py:_GlobalPool', 'neural_tangents/_src/stax/linear.py:_pool_mask'])

P('Wide random convolutional networks have the covariance kernel_fn computes',
  'Draw the parameters of serial(Conv(n1), phi1, Conv(n2), phi2, ...), optionally followed by GlobalAvgPool, GlobalSumPool or Flatten, with init_fn. For each tolerance and probability there is a width such that, if all layers are at least that wide, kernel_fn of the same network succeeds and with this probability every entry of the empirical NNGP kernel (the average over channels of the products of outputs, at every pair of examples and positions) is within the tolerance of the corresponding entry of its nngp.',
  'all depths, inputs, spatial shapes and numbers of spatial axes, filter sizes, strides, paddings, standard deviations, parameterizations, continuous nonlinearities of polynomial growth with an exact kernel, layouts of the kernel',
  'A limit over widths and a statement on probabilities; tests compare one width and a few samples with loose tolerances.',
  ['stax/linear.py:_Conv', 'stax/linear.py:_GlobalPool', 'stax/linear.py:Flatten', 'stax/elementwise.py:_elementwise', 'stax/combinators.py:serial', 'stax/requirements.py:_inputs_to_kernel', 'empirical.py:empirical_nngp_fn', 'monte_carlo.py:monte_carlo_kernel_fn'])

P('Wide random networks of mixed layers have the covariance kernel_fn computes',
  'Take serial of Conv and Dense layers, each with an optional nonlinearity, AvgPool, SumPool, GlobalAvgPool, GlobalSumPool and Flatten layers, in any order in which each layer accepts the output of the one before, and draw the parameters with init_fn. For each tolerance and probability there is a width such that, if all Conv and Dense layers are at least that wide, kernel_fn of the same network succeeds and with this probability every entry of the empirical NNGP kernel (the average over channels of the products of outputs, at every pair of examples and positions) is within the tolerance of the corresponding entry of its nngp.',
  'all sequences of layers of these kinds, inputs, spatial shapes and numbers of spatial axes, filter and window sizes, strides, paddings, standard deviations, parameterizations, continuous nonlinearities of polynomial growth with an exact kernel, axes of batch and channels',
  'A limit over widths and a statement on probabilities for all architectures of these layers; tests compare one width and a few samples with loose tolerances.',
  ['stax/linear.py:_Conv', 'stax/linear.py:Dense', 'stax/linear.py:_Pool', 'stax/linear.py:_GlobalPool', 'stax/linear.py:Flatten', 'stax/elementwise.py:_elementwise', 'stax/combinators.py:serial', 'stax/requirements.py:_inputs_to_kernel', 'empirical.py:empirical_nngp_fn', 'monte_carlo.py:monte_carlo_kernel_fn'])

with open(os.path.join(os.path.dirname(__file__), '..', 'properties.jsonl'), 'w') as f:
    for o in OUT:
        f.write(json.dumps(o) + '\n')
print(len(OUT))
