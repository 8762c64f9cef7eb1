{"id": "C01", "title": "Serial batching is transparent", "statement": "For any kernel function whose (i, j) output entry depends only on the i-th row of x1 and the j-th row of x2, `nt.batch(kernel_fn, batch_size)` (serial, arrays in) returns, entry for entry, the array the un-batched kernel function returns: every entry is computed exactly once, by the right tile, and is written to the right place; with a `Kernel` output the per-example fields of x1 (`cov1`, `mask1`) come back in x1 order, those of x2 (`cov2`) in x2 order, and `cov2` is None iff x2 was None.", "quantifier": "all pairwise kernel functions, all dataset sizes n1, n2, all batch sizes and device counts for which the call does not raise, with and without x2", "why_tests_cant": "the number of (n1, n2, batch size) layouts is unbounded and a transposed tile grid is invisible whenever the tile counts are 1 or the kernel is constant on tiles", "anchors": ["neural_tangents/_src/batching.py:_serial.serial_fn_x1", "neural_tangents/_src/batching.py:_scan", "neural_tangents/_src/batching.py:_flatten_batch_dimensions", "neural_tangents/_src/batching.py:_flatten_kernel_dict", "neural_tangents/_src/batching.py:_get_n_batches_and_batch_sizes"]}
{"id": "C02", "title": "Batch-size arithmetic tiles the dataset or raises", "statement": "Given dataset sizes, a requested batch size and a device count, batching either uses batch counts and sizes with n1 = n1_batches * n1_batch_size, n2 = n2_batches * n2_batch_size, n1_batch_size = device_count * n2_batch_size, n2_batch_size positive and at most the requested batch size, or it raises; it raises exactly when the effective batch size min(batch_size, gcd(n1, n2) // device_count) is 0 or does not divide.", "quantifier": "all n1, n2, batch_size, device_count >= 1", "why_tests_cant": "integer arithmetic over an unbounded domain with four interacting divisibility conditions", "anchors": ["neural_tangents/_src/batching.py:_get_n_batches_and_batch_sizes"]}
{"id": "C03", "title": "Device-parallel batching is transparent", "statement": "Splitting x1 over devices with `nt.batch(kernel_fn, batch_size=0, device_count)` returns entry for entry what the un-batched kernel function returns; when fewer examples than devices are given only as many devices as examples are used; otherwise a dataset size not divisible by the device count raises.", "quantifier": "all pairwise kernel functions, n1, n2 and device counts", "why_tests_cant": "a host has one fixed number of devices, so tests see one device count", "anchors": ["neural_tangents/_src/batching.py:_parallel.parallel_fn_x1", "neural_tangents/_src/batching.py:_parallel._get_n_per_device", "neural_tangents/_src/batching.py:_flatten_batch_dimensions"]}
{"id": "C04", "title": "Serial over parallel batching is transparent", "statement": "The composition used by `nt.batch` with both a batch size and several devices (serial tiling of a device-parallel function) returns entry for entry what the un-batched kernel function returns.", "quantifier": "all pairwise kernel functions, n1, n2, batch sizes and device counts for which the call does not raise", "why_tests_cant": "two nested tilings with different tile shapes; needs several devices", "anchors": ["neural_tangents/_src/batching.py:batch", "neural_tangents/_src/batching.py:_serial", "neural_tangents/_src/batching.py:_parallel"]}
{"id": "C05", "title": "Batched evaluation on a Kernel input is transparent", "statement": "Serially batching a kernel-to-kernel function over an input `Kernel` (slicing nngp/ntk/cov1/cov2 per tile, evaluating, re-assembling) gives the same nngp, ntk, cov1 and cov2 as applying the function to the whole Kernel, for every function acting entry-wise on (i, j, cov1[i], cov2[j]).", "quantifier": "all entry-wise kernel-to-kernel functions, sizes, batch sizes", "why_tests_cant": "unbounded family of layouts; slicing and re-assembly errors cancel for symmetric data", "anchors": ["neural_tangents/_src/batching.py:_serial.serial_fn_kernel", "neural_tangents/_src/utils/kernel.py:Kernel.slice"]}
{"id": "C06", "title": "Compiled-function cache is history independent", "statement": "The result of a call to a device-batched function does not depend on the calls made before it through the shared compiled-function cache.", "quantifier": "all finite histories of calls (any functions, positional and keyword arguments) followed by any call", "why_tests_cant": "the property ranges over call histories; a test fixes one history", "anchors": ["neural_tangents/_src/batching.py:_get_jit_or_pmap_broadcast"]}
{"id": "C07", "title": "Unrolled scan is a left fold with stacked outputs", "statement": "`_scan(f, init, xs)` threads the carry through the elements of xs left to right and returns the final carry and the outputs stacked in order: output t depends only on the first t+1 inputs, and scanning a concatenation is scanning the first part then the second from the carry reached.", "quantifier": "all step functions, initial carries and input sequences", "why_tests_cant": "unbounded sequence length", "anchors": ["neural_tangents/_src/batching.py:_scan"]}
{"id": "C08", "title": "Monte Carlo estimate is the exact running mean", "statement": "`nt.monte_carlo_kernel_fn(...)(x1, x2)` with n_samples = n returns the arithmetic mean of the n single-draw empirical kernels of the n keys derived from the PRNG key, for every n >= 1.", "quantifier": "all single-draw kernels, PRNG split functions, n >= 1", "why_tests_cant": "unbounded n; an off-by-one in the normaliser is hidden by sampling noise", "anchors": ["neural_tangents/_src/monte_carlo.py:_sample_many_kernel_fn", "neural_tangents/_src/monte_carlo.py:_sample_once_kernel_fn"]}
{"id": "C09", "title": "Monte Carlo generator is prefix consistent", "statement": "When n_samples is an iterable, the k-th yielded value equals what a separate call with n_samples equal to the k-th smallest requested count would return; yields happen exactly at the requested counts in increasing order, each once.", "quantifier": "all finite sets of requested sample counts, all draws", "why_tests_cant": "ranges over all subsets of counts and every intermediate state of a generator", "anchors": ["neural_tangents/_src/monte_carlo.py:_sample_many_kernel_fn.get_samples", "neural_tangents/_src/monte_carlo.py:_canonicalize_n_samples"]}
{"id": "C10", "title": "n_samples validation", "statement": "An integer n_samples below 1, or an iterable containing any such value, or a non-integer, raises; everything else is normalised to a set of positive counts together with a flag telling whether a generator was asked for.", "quantifier": "all integers and integer collections", "why_tests_cant": "unbounded inputs", "anchors": ["neural_tangents/_src/monte_carlo.py:_canonicalize_n_samples"]}
{"id": "C11", "title": "zip_axes / unzip_axes interleave coordinates and are mutually inverse", "statement": "For an array with an even number 2h of axes between start and end, the zipped array at index (lead, a1, b1, ..., ah, bh, trail) equals the input at (lead, a1..ah, b1..bh, trail), unzipping does the converse, each undoes the other, and an odd number of axes raises.", "quantifier": "all arrays, all numbers of axes, all admissible start/end", "why_tests_cant": "unbounded rank; symmetric kernels hide a wrong interleaving", "anchors": ["neural_tangents/_src/utils/utils.py:zip_axes", "neural_tangents/_src/utils/utils.py:unzip_axes", "neural_tangents/_src/utils/utils.py:_zip_axes"]}
{"id": "C12", "title": "Spatial reversal reverses pair order and is an involution", "statement": "Reversing the zipped spatial axes maps entry (lead, a1, b1, ..., ah, bh) to position (lead, ah, bh, ..., a1, b1); applied to shapes and arrays it agrees, and applied twice it is the identity. `Kernel.reverse` flips `is_reversed`, keeps every entry's logical coordinates, and is an involution.", "quantifier": "all arrays and shapes of any rank, any start axis", "why_tests_cant": "unbounded rank", "anchors": ["neural_tangents/_src/utils/utils.py:reverse_zipped", "neural_tangents/_src/utils/kernel.py:Kernel.reverse"]}
{"id": "C13", "title": "make_2d flattens paired axes to a matrix consistently", "statement": "make_2d turns a (X, X, Y, Y, ...) laid out array into a square matrix whose row index is the row-major index of (x, y, ...) and column index that of (x', y', ...), so that matrix products of flattened arrays are tensor contractions.", "quantifier": "all arrays of any rank", "why_tests_cant": "unbounded rank and sizes", "anchors": ["neural_tangents/_src/utils/utils.py:make_2d", "neural_tangents/_src/utils/utils.py:unzip_axes"]}
{"id": "C14", "title": "diagonal_between takes the joint diagonal", "statement": "diagonal_between on axes laid out (X, Y, ..., X, Y, ...) returns the entries whose first and second half coordinates agree, in order, keeping the other axes.", "quantifier": "all arrays, ranks, start/end axes", "why_tests_cant": "unbounded rank; goes through two reshapes and a moveaxis", "anchors": ["neural_tangents/_src/utils/utils.py:diagonal_between"]}
{"id": "C15", "title": "outer_prod lays out products as zipped pairs", "statement": "outer_prod(x, y) has at (lead, a1, b1, ..., ah, bh) the product op of x at (lead, a1..ah) and y at (lead, b1..bh); y = None means y = x.", "quantifier": "all arrays of any rank and all binary operations", "why_tests_cant": "unbounded rank", "anchors": ["neural_tangents/_src/utils/utils.py:outer_prod", "neural_tangents/_src/utils/utils.py:interleave_ones", "neural_tangents/_src/utils/utils.py:zip_flat"]}
{"id": "C16", "title": "Axis canonicalisation", "statement": "mod and canonicalize_axis return, for every valid (possibly negative) axis specification, the non-negative axes denoting the same dimensions; canonicalize_axis has no repeats and an out-of-range axis raises.", "quantifier": "all ranks and axis lists", "why_tests_cant": "unbounded", "anchors": ["neural_tangents/_src/utils/utils.py:mod", "neural_tangents/_src/utils/utils.py:canonicalize_axis"]}
{"id": "C17", "title": "Tree mapping preserves structure and rejects mismatched structure", "statement": "A function lifted to nested lists/tuples by nt_tree_fn returns a tree of the same structure whose leaf at each path is the function applied to the leaves of the arguments at that path; mapping composes; arguments whose node types differ raise.", "quantifier": "all nested list/tuple trees and all leaf functions", "why_tests_cant": "unbounded depth and width", "anchors": ["neural_tangents/_src/utils/utils.py:nt_tree_fn"]}
{"id": "C18", "title": "Output selection via get", "statement": "`get` may be None, a string, or a tuple: a string returns exactly that field, a tuple returns a named tuple with exactly those fields in the requested order and case-insensitively, empty or duplicated requests raise, and None returns the whole object.", "quantifier": "all get values and all result dictionaries", "why_tests_cant": "unbounded combinations of names, cases and orders", "anchors": ["neural_tangents/_src/utils/utils.py:canonicalize_get", "neural_tangents/_src/utils/utils.py:get_namedtuple"]}
{"id": "C19", "title": "Output selection does not depend on how arguments are passed", "statement": "Calling a get-selecting function with its arguments positional or by keyword, with `get` omitted so that its default applies, gives the same selection.", "quantifier": "all positional/keyword splits of an argument list", "why_tests_cant": "number of splits grows with arity; tests call one way", "anchors": ["neural_tangents/_src/utils/utils.py:get_namedtuple"]}
{"id": "C20", "title": "Dropout key discipline", "statement": "The pair of keys derived from a user key satisfies: the keys for x1 and x2 are equal iff x1 and x2 are (numerically) equal or x2 is None, provided fold_in never returns its argument; key1 is always the user's (first) key.", "quantifier": "all keys, key pairs and input pairs", "why_tests_cant": "ranges over all keys and both outcomes of a data dependent test", "anchors": ["neural_tangents/_src/utils/utils.py:_read_keys", "neural_tangents/_src/utils/utils.py:x1_is_x2", "neural_tangents/_src/utils/utils.py:split_kwargs"]}
{"id": "C21", "title": "Index canonicalisation and slice shapes", "statement": "canonicalize_idx expands an index with at most one Ellipsis to one entry per axis meaning the same thing, and slice_shape returns the shape of the indexed array, keeping unknown sizes on axes that are not indexed and raising when an unknown axis is indexed.", "quantifier": "all shapes with known or unknown sizes, all index tuples of integers, slices and at most one Ellipsis", "why_tests_cant": "unbounded combinations", "anchors": ["neural_tangents/_src/utils/utils.py:canonicalize_idx", "neural_tangents/_src/utils/utils.py:slice_shape"]}
{"id": "C22", "title": "Axis tracking through dot_general", "statement": "axis_after_dot returns the position at which a non-contracted axis of the left (or right) operand appears in the output of a general dot product whose output is laid out as batch axes, left free axes, right free axes.", "quantifier": "all ranks, batch and contracting axis lists (distinct, disjoint) and axes", "why_tests_cant": "unbounded; wrong only for unusual orders of batch axes", "anchors": ["neural_tangents/_src/utils/utils.py:axis_after_dot", "neural_tangents/_src/utils/kernel.py:Kernel.dot_general"]}
{"id": "C23", "title": "Dataclass pytree round trip and replace laws", "statement": "Flattening a Kernel (or any such dataclass) and rebuilding it gives back the same object; static fields never change under leaf mapping; replace changes exactly the named fields, last write wins, replacing with current values is the identity, and unknown names raise; asdict followed by construction is the identity.", "quantifier": "all field lists, classifications and values", "why_tests_cant": "ranges over all dataclasses and all values", "anchors": ["neural_tangents/_src/utils/dataclasses.py:dataclass", "neural_tangents/_src/utils/kernel.py:Kernel"]}
{"id": "C24", "title": "Kernel arithmetic matches arithmetic of the random function", "statement": "If a Kernel describes the (zero mean) output covariances and NTK of a random network f, then kernel * c describes c f, kernel / c describes f / c, -kernel describes -f, and kernel + c describes f + c where c is independent of the parameters; in particular NTK is untouched by + c.", "quantifier": "all kernels, all scalars, all random functions with the given covariance", "why_tests_cant": "a distributional statement", "anchors": ["neural_tangents/_src/utils/kernel.py:Kernel.__mul__", "neural_tangents/_src/utils/kernel.py:Kernel.__add__", "neural_tangents/_src/utils/kernel.py:Kernel.__sub__", "neural_tangents/_src/utils/kernel.py:Kernel.__truediv__", "neural_tangents/_src/utils/kernel.py:Kernel.__neg__"]}
{"id": "C25", "title": "Kernel masking zeroes exactly the masked pairs", "statement": "Masking a Kernel sets to zero exactly those covariance entries at which either of the two examples/positions is masked, in full or diagonal and reversed or non-reversed layout, and leaves all others; masking twice with the same mask is masking once.", "quantifier": "all mask arrays, layouts, ranks", "why_tests_cant": "combinatorial explosion of layouts and ranks", "anchors": ["neural_tangents/_src/utils/kernel.py:Kernel.mask", "neural_tangents/_src/utils/kernel.py:Kernel._get_mask_prods", "neural_tangents/_src/utils/utils.py:mask"]}
{"id": "C26", "title": "Kernel transpose permutes logical spatial coordinates", "statement": "Kernel.transpose(axes) relabels spatial positions as jnp.transpose of the activations would: the entry for positions p, p' of the transposed activations is the old entry for the un-permuted positions, for full and diagonal layouts.", "quantifier": "all permutations and ranks", "why_tests_cant": "permutations of rank <= 2 are involutions so tests on images cannot see an inverted permutation", "anchors": ["neural_tangents/_src/utils/kernel.py:Kernel.transpose"]}
{"id": "C27", "title": "Kernel indexing matches indexing of activations", "statement": "kernel[idx] has at positions p, p' the covariance of the indexed activations x[idx]: batch slices, spatial integers and slices are applied in the corresponding axes in either spatial order, batch and channel axes are tracked when integer indices remove axes, and indexing the channel axis or an integer batch index raises.", "quantifier": "all index tuples, layouts, ranks, axis positions", "why_tests_cant": "unbounded combinations of layouts and indices", "anchors": ["neural_tangents/_src/utils/kernel.py:Kernel.__getitem__", "neural_tangents/_src/utils/utils.py:canonicalize_idx"]}
{"id": "C28", "title": "Kernel dot_general matches contraction of activations", "statement": "Kernel.dot_general against deterministic arrays gives the covariance of the contracted activations: contracted spatial coordinates are summed against both operands and batch coordinates are matched, in either spatial order, and the result is never reversed.", "quantifier": "all contracting/batch axes, layouts, ranks", "why_tests_cant": "einsum index lists over unbounded rank", "anchors": ["neural_tangents/_src/utils/kernel.py:Kernel.dot_general"]}
{"id": "C29", "title": "Layout algebra laws", "statement": "The layout requirement objects obey the documented laws: parallel combination is commutative, associative and idempotent; serial composition is associative; and a network gets the diagonal-only layout exactly when its combined requirement says so.", "quantifier": "all requirement values", "why_tests_cant": "a finite but structural claim about operators used on arbitrarily long networks", "anchors": ["neural_tangents/_src/stax/requirements.py:Bool", "neural_tangents/_src/stax/requirements.py:Diagonal"]}
{"id": "C30", "title": "Diagonal-only layout never loses information", "statement": "Whenever the combined requirement of a network selects the diagonal-only spatial layout, running the kernel through the layers in that layout gives exactly the entries the full layout computation gives.", "quantifier": "all sequences of layers with declared requirements they actually meet, all kernels", "why_tests_cant": "ranges over all networks", "anchors": ["neural_tangents/_src/stax/requirements.py:Diagonal", "neural_tangents/_src/stax/combinators.py:_get_input_req_attr", "neural_tangents/_src/stax/requirements.py:_inputs_to_kernel"]}
{"id": "C31", "title": "Requirement folding of serial and parallel", "statement": "The requirement computed for `serial` and `parallel` networks from their layers agrees with the composition/AND of layer requirements, does not depend on how a serial chain is nested, and conflicting dropout settings raise for every network containing the conflict.", "quantifier": "all trees of layers", "why_tests_cant": "unbounded trees", "anchors": ["neural_tangents/_src/stax/combinators.py:_get_input_req_attr", "neural_tangents/_src/stax/combinators.py:serial", "neural_tangents/_src/stax/combinators.py:parallel"]}
{"id": "C32", "title": "serial composes init, apply and kernel functions", "statement": "`serial(*layers)` maps shapes, parameters, activations and kernels through the layers in order; nesting serial in serial does not change apply_fn or kernel_fn, and serial() of one layer is that layer.", "quantifier": "all lists of layers", "why_tests_cant": "unbounded depth", "anchors": ["neural_tangents/_src/stax/combinators.py:serial"]}
{"id": "C33", "title": "parallel acts branch-wise", "statement": "`parallel(*layers)` applies layer i to branch i only, independently for apply and kernel functions, with one parameter set per branch and independent keys per branch.", "quantifier": "all lists of layers and inputs", "why_tests_cant": "unbounded width", "anchors": ["neural_tangents/_src/stax/combinators.py:parallel"]}
{"id": "C34", "title": "repeat equals n-fold serial", "statement": "`repeat(layer, n)` has the same apply and kernel functions as `serial(*[layer] * n)` for every n >= 0 and shape-preserving layer.", "quantifier": "all layers and n", "why_tests_cant": "unbounded n", "anchors": ["neural_tangents/_src/stax/combinators.py:repeat"]}
{"id": "C35", "title": "Input kernel is the empirical second-moment of the inputs", "statement": "The Kernel built from raw inputs holds, in whichever of the four layouts is chosen, nngp[i, j, p, q] = mean over channels of x1[i, p] x2[j, q], cov1/cov2 likewise, diagonal layouts being the corresponding entries of the full one; ntk starts at zero.", "quantifier": "all inputs, ranks, batch/channel axis positions, layouts", "why_tests_cant": "four layouts times unbounded rank times axis positions", "anchors": ["neural_tangents/_src/stax/requirements.py:_cov", "neural_tangents/_src/stax/requirements.py:_cov_diag_batch", "neural_tangents/_src/stax/requirements.py:_inputs_to_kernel"]}
{"id": "C36", "title": "Explicit options override inferred requirements safely", "statement": "User supplied layout options are accepted only if the network requirement allows them, otherwise the call raises; unspecified options get the inferred or default value.", "quantifier": "all requirement maps and option values", "why_tests_cant": "combinatorial", "anchors": ["neural_tangents/_src/stax/requirements.py:_fuse_requirements", "neural_tangents/_src/stax/requirements.py:_preprocess_kernel_fn"]}
{"id": "C37", "title": "Gaussianity is enforced", "statement": "A layer that requires Gaussian inputs raises whenever the incoming kernel is not marked Gaussian; Dense/Conv re-establish the mark and nonlinearities clear it, so in any accepted network every nonlinearity is applied to the output of a parametrised linear layer (up to mark-preserving layers).", "quantifier": "all networks", "why_tests_cant": "unbounded networks", "anchors": ["neural_tangents/_src/stax/requirements.py:requires", "neural_tangents/_src/stax/elementwise.py:_elementwise", "neural_tangents/_src/stax/linear.py:Dense"]}
{"id": "C38", "title": "FanInSum adds covariances of independent branches", "statement": "FanInSum of kernels describes the sum of independent (or identical-input, Gaussian) branches: nngp, ntk and variances add entry-wise independent of the branch spatial orders; the combination is independent of branch order; at least one Gaussian branch per requirement is enforced.", "quantifier": "all lists of kernels", "why_tests_cant": "unbounded number of branches and mixed spatial orders", "anchors": ["neural_tangents/_src/stax/branching.py:FanInSum", "neural_tangents/_src/stax/branching.py:_preprocess_kernels_for_fan_in"]}
{"id": "C39", "title": "FanInProd multiplies covariances and obeys the product rule for the NTK", "statement": "FanInProd of kernels has nngp = product of nngps and ntk = sum over branches of that branch ntk times the product of the other nngps; equal to the covariance and gradient kernel of a product of independent zero-mean functions, for any number of branches.", "quantifier": "all lists of kernels of any length", "why_tests_cant": "unbounded number of branches", "anchors": ["neural_tangents/_src/stax/branching.py:FanInProd"]}
{"id": "C40", "title": "FanInConcat concatenates or averages", "statement": "Concatenation along the channel axis gives the channel-weighted average of covariances and NTKs; along the batch axis gives the block matrix (with zero/cross blocks as documented); along a spatial axis the block arrangement.", "quantifier": "all lists of kernels and axes", "why_tests_cant": "unbounded", "anchors": ["neural_tangents/_src/stax/branching.py:FanInConcat", "neural_tangents/_src/stax/branching.py:_concat_kernels"]}
{"id": "C41", "title": "Mask propagation through sums and concatenations", "statement": "A position of a summed output is masked iff it is masked in every branch that has a mask (branches without a mask are ignored), whatever the broadcasting of the masks, and independently of branch order and grouping; there is no mask iff no branch has one. A concatenated output carries the mask of each branch at the place of that branch.", "quantifier": "all lists of optional masks", "why_tests_cant": "unbounded", "anchors": ["neural_tangents/_src/stax/branching.py:_sum_masks", "neural_tangents/_src/stax/branching.py:_concat_masks"]}
{"id": "C42", "title": "Exp kernel equals the Gaussian expectation", "statement": "For the nonlinearity a exp(b x) the analytic nngp returned for input covariances (q11, q12, q22) equals E[phi(u) phi(v)] for a centred Gaussian pair (u, v) with those covariances, and the factor multiplying the incoming ntk equals E[phi'(u) phi'(v)], including the degenerate cases (zero variances, perfectly correlated inputs) the code special-cases.", "quantifier": "all positive semidefinite 2x2 input covariances and all parameters of the nonlinearity", "why_tests_cant": "a statement about exact integrals over a continuum of covariances; Monte Carlo tests have noise and miss degenerate points", "anchors": ["neural_tangents/_src/stax/elementwise.py:Exp"]}
{"id": "C43", "title": "Sin, Cos and Rbf kernel equals the Gaussian expectation", "statement": "For the nonlinearity a sin(b x + c), a cos(b x + c) and the RBF feature map the analytic nngp returned for input covariances (q11, q12, q22) equals E[phi(u) phi(v)] for a centred Gaussian pair (u, v) with those covariances, and the factor multiplying the incoming ntk equals E[phi'(u) phi'(v)], including the degenerate cases (zero variances, perfectly correlated inputs) the code special-cases.", "quantifier": "all positive semidefinite 2x2 input covariances and all parameters of the nonlinearity", "why_tests_cant": "a statement about exact integrals over a continuum of covariances; Monte Carlo tests have noise and miss degenerate points", "anchors": ["neural_tangents/_src/stax/elementwise.py:Sin", "neural_tangents/_src/stax/elementwise.py:Cos", "neural_tangents/_src/stax/elementwise.py:Rbf"]}
{"id": "C44", "title": "ABRelu family kernel equals the Gaussian expectation", "statement": "For the nonlinearity a min(x, 0) + b max(x, 0) the analytic nngp returned for input covariances (q11, q12, q22) equals E[phi(u) phi(v)] for a centred Gaussian pair (u, v) with those covariances, and the factor multiplying the incoming ntk equals E[phi'(u) phi'(v)], including the degenerate cases (zero variances, perfectly correlated inputs) the code special-cases.", "quantifier": "all positive semidefinite 2x2 input covariances and all parameters of the nonlinearity", "why_tests_cant": "a statement about exact integrals over a continuum of covariances; Monte Carlo tests have noise and miss degenerate points", "anchors": ["neural_tangents/_src/stax/elementwise.py:ABRelu", "neural_tangents/_src/stax/elementwise.py:Relu", "neural_tangents/_src/stax/elementwise.py:LeakyRelu", "neural_tangents/_src/stax/elementwise.py:Abs", "neural_tangents/_src/stax/elementwise.py:_sqrt", "neural_tangents/_src/stax/elementwise.py:_arctan2"]}
{"id": "C45", "title": "Sign kernel equals the Gaussian expectation", "statement": "For the nonlinearity sign(x) the analytic nngp returned for input covariances (q11, q12, q22) equals E[phi(u) phi(v)] for a centred Gaussian pair (u, v) with those covariances, and the factor multiplying the incoming ntk equals E[phi'(u) phi'(v)], including the degenerate cases (zero variances, perfectly correlated inputs) the code special-cases.", "quantifier": "all positive semidefinite 2x2 input covariances and all parameters of the nonlinearity", "why_tests_cant": "a statement about exact integrals over a continuum of covariances; Monte Carlo tests have noise and miss degenerate points", "anchors": ["neural_tangents/_src/stax/elementwise.py:Sign"]}
{"id": "C46", "title": "Erf and sigmoid-like kernel equals the Gaussian expectation", "statement": "For the nonlinearity a erf(b x) + c the analytic nngp returned for input covariances (q11, q12, q22) equals E[phi(u) phi(v)] for a centred Gaussian pair (u, v) with those covariances, and the factor multiplying the incoming ntk equals E[phi'(u) phi'(v)], including the degenerate cases (zero variances, perfectly correlated inputs) the code special-cases.", "quantifier": "all positive semidefinite 2x2 input covariances and all parameters of the nonlinearity", "why_tests_cant": "a statement about exact integrals over a continuum of covariances; Monte Carlo tests have noise and miss degenerate points", "anchors": ["neural_tangents/_src/stax/elementwise.py:Erf", "neural_tangents/_src/stax/elementwise.py:Sigmoid_like"]}
{"id": "C47", "title": "Monomial and RectifiedMonomial kernel equals the Gaussian expectation", "statement": "For the nonlinearity x^d and x^d [x >= 0] the analytic nngp returned for input covariances (q11, q12, q22) equals E[phi(u) phi(v)] for a centred Gaussian pair (u, v) with those covariances, and the factor multiplying the incoming ntk equals E[phi'(u) phi'(v)], including the degenerate cases (zero variances, perfectly correlated inputs) the code special-cases.", "quantifier": "all positive semidefinite 2x2 input covariances and all parameters of the nonlinearity", "why_tests_cant": "a statement about exact integrals over a continuum of covariances; Monte Carlo tests have noise and miss degenerate points", "anchors": ["neural_tangents/_src/stax/elementwise.py:Monomial", "neural_tangents/_src/stax/elementwise.py:RectifiedMonomial", "neural_tangents/_src/stax/elementwise.py:_double_factorial"]}
{"id": "C48", "title": "Polynomial kernel equals the Gaussian expectation", "statement": "For the nonlinearity arbitrary polynomials the analytic nngp returned for input covariances (q11, q12, q22) equals E[phi(u) phi(v)] for a centred Gaussian pair (u, v) with those covariances, and the factor multiplying the incoming ntk equals E[phi'(u) phi'(v)], including the degenerate cases (zero variances, perfectly correlated inputs) the code special-cases.", "quantifier": "all positive semidefinite 2x2 input covariances and all parameters of the nonlinearity", "why_tests_cant": "a statement about exact integrals over a continuum of covariances; Monte Carlo tests have noise and miss degenerate points", "anchors": ["neural_tangents/_src/stax/elementwise.py:Polynomial"]}
{"id": "C49", "title": "Gaussian kernel equals the Gaussian expectation", "statement": "For the nonlinearity a exp(b x^2) the analytic nngp returned for input covariances (q11, q12, q22) equals E[phi(u) phi(v)] for a centred Gaussian pair (u, v) with those covariances, and the factor multiplying the incoming ntk equals E[phi'(u) phi'(v)], including the degenerate cases (zero variances, perfectly correlated inputs) the code special-cases.", "quantifier": "all positive semidefinite 2x2 input covariances and all parameters of the nonlinearity", "why_tests_cant": "a statement about exact integrals over a continuum of covariances; Monte Carlo tests have noise and miss degenerate points", "anchors": ["neural_tangents/_src/stax/elementwise.py:Gaussian"]}
{"id": "C50", "title": "Nonlinearity kernels are consistent on the diagonal", "statement": "For every analytic nonlinearity the variance (cov1/cov2) update equals the covariance (nngp) update evaluated at equal inputs, so the kernel of a point with itself is its variance.", "quantifier": "all analytic nonlinearities, all variances", "why_tests_cant": "continuum of inputs, many nonlinearities, numerically special-cased branches", "anchors": ["neural_tangents/_src/stax/elementwise.py", "neural_tangents/_src/stax/requirements.py:get_diagonal_outer_prods"]}
{"id": "C51", "title": "do_stabilize does not change the result", "statement": "For homogeneous nonlinearities rescaling by the maximum before and after (do_stabilize) gives the same kernel as the direct formula.", "quantifier": "all kernels with positive maximum", "why_tests_cant": "real analysis identity", "anchors": ["neural_tangents/_src/stax/elementwise.py:ABRelu"]}
{"id": "C52", "title": "Dense kernel equals the exact covariance and NTK over random weights", "statement": "For Dense with independent zero-mean unit-variance parameters, E over weights and biases of output products equals W_std^2 K + b_std^2, and the output parameter-gradient inner product plus back-propagated input NTK equals the returned ntk, in both parameterisations.", "quantifier": "all input dimensions, inputs, parameter distributions with given two moments, W_std, b_std", "why_tests_cant": "distributional; continuum of inputs", "anchors": ["neural_tangents/_src/stax/linear.py:Dense", "neural_tangents/_src/stax/linear.py:_affine"]}
{"id": "C53", "title": "Convolution kernel equals the exact covariance of the convolution", "statement": "For Conv with any filter shape, stride and padding the kernel at output positions p, p' is W_std^2 times the average over filter offsets f of the input kernel at (p s + f, p' s + f) with zeros (VALID/SAME) or wrap-around (CIRCULAR) outside, plus b_std^2; diagonal-layout convolution agrees with the diagonal of the full one.", "quantifier": "all filter shapes, strides, paddings, spatial ranks, kernels", "why_tests_cant": "unbounded ranks; shift/stride errors cancel for stationary inputs", "anchors": ["neural_tangents/_src/stax/linear.py:_Conv", "neural_tangents/_src/stax/linear.py:_conv_kernel_full_spatial_shared", "neural_tangents/_src/stax/linear.py:_conv_kernel_full_spatial_loop", "neural_tangents/_src/stax/linear.py:_conv_kernel_diagonal_spatial", "neural_tangents/_src/stax/linear.py:_same_pad_for_filter_shape"]}
{"id": "C54", "title": "Pooling kernels equal covariances of pooled activations", "statement": "AvgPool/SumPool (any window, stride, padding, with or without edge normalisation) and GlobalAvgPool/GlobalSumPool kernels equal the covariance of the pooled activations.", "quantifier": "all windows, strides, paddings, ranks, kernels", "why_tests_cant": "unbounded ranks", "anchors": ["neural_tangents/_src/stax/linear.py:_Pool", "neural_tangents/_src/stax/linear.py:_pool_kernel", "neural_tangents/_src/stax/linear.py:_GlobalPool", "neural_tangents/_src/stax/linear.py:_normalize"]}
{"id": "C55", "title": "Flatten kernel is the mean over positions", "statement": "Flatten maps the kernel to the average over spatial positions of the equal-position entries, the exact second moment of the flattened activations per feature, in full and diagonal layout.", "quantifier": "all ranks and kernels", "why_tests_cant": "unbounded ranks", "anchors": ["neural_tangents/_src/stax/linear.py:Flatten"]}
{"id": "C56", "title": "Dropout kernel equals the exact second moment", "statement": "With independent keep masks of the given rate, the covariance of dropped activations equals the input kernel with exactly the same-example same-position entries divided by rate; evaluation mode is the identity.", "quantifier": "all rates in (0, 1], all layouts, all kernels", "why_tests_cant": "distributional, four layouts", "anchors": ["neural_tangents/_src/stax/linear.py:Dropout", "neural_tangents/_src/stax/linear.py:_diag_mul"]}
{"id": "C57", "title": "LayerNorm kernel normalises variances", "statement": "LayerNorm divides each covariance entry by the geometric mean of the corresponding variances (plus eps) so that normalised variances are 1 (when eps = 0), and applying it twice is applying it once.", "quantifier": "all kernels with positive variances, all axes", "why_tests_cant": "continuum of inputs", "anchors": ["neural_tangents/_src/stax/linear.py:LayerNorm"]}
{"id": "C58", "title": "Aggregate dense and sparse implementations agree", "statement": "Graph aggregation with a dense adjacency matrix and with the equivalent sender/receiver edge list gives the same activations and the same kernel, equal to A^T K A.", "quantifier": "all graphs (including repeated edges and padding edges), all kernels, all aggregated axes", "why_tests_cant": "unbounded graphs", "anchors": ["neural_tangents/_src/stax/linear.py:Aggregate"]}
{"id": "C59", "title": "Attention kernel is a well-formed bilinear map", "statement": "GlobalSelfAttention with linear scaling and identity attention computes G K G^T averages with the documented constants, symmetric in the two inputs; masked positions receive zero weight.", "quantifier": "all kernels and masks", "why_tests_cant": "continuum", "anchors": ["neural_tangents/_src/stax/linear.py:GlobalSelfAttention"]}
{"id": "C60", "title": "SAME and CIRCULAR padding arithmetic", "statement": "Explicit circular padding followed by VALID convolution equals convolution of the periodic extension with the same output size as SAME.", "quantifier": "all sizes, strides, filter sizes", "why_tests_cant": "modular arithmetic on unbounded sizes", "anchors": ["neural_tangents/_src/stax/linear.py:_same_pad_for_filter_shape"]}
{"id": "C61", "title": "Closed-form MSE training dynamics solve the gradient flow", "statement": "gradient_descent_mse(k_train_train, y)(t, fx0) is, for all t, the solution of d f/dt = - lr K (f - y) / normaliser with f(0) = fx0, and the test output follows d f_test/dt = - lr K_td (f - y)/ normaliser.", "quantifier": "all symmetric kernels (including singular), targets, initial outputs, times", "why_tests_cant": "an ODE identity for all t and all matrices", "anchors": ["neural_tangents/_src/predict.py:gradient_descent_mse", "neural_tangents/_src/predict.py:_get_fns_in_eigenbasis", "neural_tangents/_src/predict.py:_make_expm1_fn", "neural_tangents/_src/predict.py:_make_inv_expm1_fn"]}
{"id": "C62", "title": "Closed-form dynamics start at the initial outputs and form a semigroup", "statement": "At t = 0 the returned outputs are the initial ones, and evolving to s then to t equals evolving to s + t.", "quantifier": "all kernels, targets, times", "why_tests_cant": "continuum", "anchors": ["neural_tangents/_src/predict.py:gradient_descent_mse"]}
{"id": "C63", "title": "Infinite-time prediction is the limit of finite-time predictions", "statement": "For positive definite train kernel the t = None answer is the limit of the t answers as t grows; train outputs converge to the targets and test outputs to fx_test + K_td K_dd^-1 (y - fx_train).", "quantifier": "all positive definite kernels", "why_tests_cant": "limits", "anchors": ["neural_tangents/_src/predict.py:gradient_descent_mse"]}
{"id": "C64", "title": "GP inference is the Gaussian posterior", "statement": "gp_inference with nngp returns the conditional mean and covariance of the joint Gaussian given noisy targets: mean solves the regularised normal equations, covariance is the Schur complement (positive semidefinite, zero at noiseless training points).", "quantifier": "all positive definite kernels and regularisers", "why_tests_cant": "continuum", "anchors": ["neural_tangents/_src/predict.py:gp_inference", "neural_tangents/_src/predict.py:_get_cho_solve", "neural_tangents/_src/predict.py:_add_diagonal_regularizer"]}
{"id": "C65", "title": "Ensemble predictions interpolate prior and posterior", "statement": "gradient_descent_mse_ensemble mean and covariance at t = 0 are the prior mean and covariance and tend, as t grows, to the t = None result; at t = None with get = nngp they equal gp_inference.", "quantifier": "all kernels, times", "why_tests_cant": "limits over a continuum", "anchors": ["neural_tangents/_src/predict.py:gradient_descent_mse_ensemble"]}
{"id": "C66", "title": "Prediction caches are history independent", "statement": "The predict function returned by gradient_descent_mse_ensemble / gp_inference gives the same answer whatever sequence of get/t queries preceded it, although it caches train kernels and decompositions.", "quantifier": "all query histories", "why_tests_cant": "ranges over histories", "anchors": ["neural_tangents/_src/predict.py:gradient_descent_mse_ensemble", "neural_tangents/_src/predict.py:gp_inference"]}
{"id": "C67", "title": "Maximum learning rate separates convergence from divergence", "statement": "For gradient descent on MSE with the returned bound, every smaller positive learning rate contracts every mode of the train error, and larger ones expand the top mode.", "quantifier": "all positive semidefinite kernels, momenta", "why_tests_cant": "for all steps and all kernels", "anchors": ["neural_tangents/_src/predict.py:max_learning_rate"]}
{"id": "C68", "title": "Gradient descent ODE right-hand side", "statement": "gradient_descent integrates exactly d f/dt = -lr K grad L(f) (or the heavy-ball system with momentum); for MSE loss it is the same ODE the closed form solves.", "quantifier": "all losses, kernels, states", "why_tests_cant": "continuum", "anchors": ["neural_tangents/_src/predict.py:gradient_descent"]}
{"id": "C69", "title": "Input validation of predictors", "statement": "Predictors raise when the initial outputs and kernels have inconsistent test arguments, and otherwise output shapes are as documented.", "quantifier": "all shapes", "why_tests_cant": "combinatorial", "anchors": ["neural_tangents/_src/predict.py:_check_inputs", "neural_tangents/_src/predict.py:_get_fx_test_shape", "neural_tangents/_src/predict.py:_get_axes"]}
{"id": "C70", "title": "linearize is the first-order Taylor polynomial", "statement": "linearize(f, params)(p, x) is affine in p, equals f at p = params, has the same parameter gradient there, and is exact when f is affine in its parameters.", "quantifier": "all differentiable f and all p", "why_tests_cant": "continuum", "anchors": ["neural_tangents/_src/empirical.py:linearize"]}
{"id": "C71", "title": "taylor_expand is the Taylor polynomial of the stated degree", "statement": "taylor_expand(f, params, d) equals sum over k <= d of the k-th directional derivative over k!, is exact for polynomials of degree <= d, degree 1 equals linearize and degree 0 is constant; negative degree raises.", "quantifier": "all smooth f, degrees", "why_tests_cant": "unbounded degree", "anchors": ["neural_tangents/_src/empirical.py:taylor_expand"]}
{"id": "C72", "title": "The empirical NTK implementations agree", "statement": "Jacobian contraction, NTK-vector products and structured derivatives return the same array, J1 J2^T contracted over parameters with the requested trace and diagonal axes, for all functions.", "quantifier": "all functions, inputs, trace and diagonal axes", "why_tests_cant": "continuum; combinations of axes", "anchors": ["neural_tangents/_src/empirical.py:_jacobian_contraction_ntk_fn", "neural_tangents/_src/empirical.py:_ntk_vector_products_ntk_fn", "neural_tangents/_src/empirical.py:_structured_derivatives_ntk_fn", "neural_tangents/_src/empirical.py:_trace_and_diagonal"]}
{"id": "C73", "title": "Empirical kernels are symmetric positive semidefinite", "statement": "empirical NTK and NNGP for x1 = x2 are symmetric positive semidefinite Gram matrices, and swapping inputs transposes the result.", "quantifier": "all functions and inputs", "why_tests_cant": "continuum", "anchors": ["neural_tangents/_src/empirical.py:empirical_ntk_fn", "neural_tangents/_src/empirical.py:empirical_nngp_fn"]}
{"id": "C74", "title": "Order-preserving dot_general", "statement": "The internal dot product used by empirical kernels returns batch axes at their original positions (not moved to the front) and contracts the stated axes.", "quantifier": "all ranks and axis lists", "why_tests_cant": "unbounded rank", "anchors": ["neural_tangents/_src/empirical.py:_dot_general", "neural_tangents/_src/empirical.py:_get_res_batch_dims", "neural_tangents/_src/empirical.py:_get_dims"]}
{"id": "C75", "title": "NTK-vector products", "statement": "empirical_ntk_vp_fn(x1, x2, params)(v) is the NTK matrix applied to v, linear in v.", "quantifier": "all functions and cotangents", "why_tests_cant": "continuum", "anchors": ["neural_tangents/_src/empirical.py:empirical_ntk_vp_fn"]}
{"id": "C76", "title": "Structured-derivative rules give true Jacobians", "statement": "For each primitive rule declaring Jacobian structure (identity blocks, diagonal axes, constant blocks) expanding the compact form gives the full Jacobian of the primitive.", "quantifier": "all shapes and inputs of each primitive", "why_tests_cant": "unbounded ranks", "anchors": ["neural_tangents/_src/utils/rules.py:_dot_general_j", "neural_tangents/_src/utils/rules.py:_mul_j", "neural_tangents/_src/utils/rules.py:_reduce_sum_j", "neural_tangents/_src/utils/rules.py:_transpose_j", "neural_tangents/_src/utils/rules.py:Structure"]}
{"id": "C77", "title": "Structure intersection is a sound meet", "statement": "The combination of structure declarations used when cotangents meet declares only structure both sides have, and is idempotent and commutative on what it promises.", "quantifier": "all structures", "why_tests_cant": "unbounded axis lists", "anchors": ["neural_tangents/_src/utils/rules.py:Structure.__and__"]}
{"id": "C78", "title": "Masked mean and variance", "statement": "Layer-normalisation statistics over masked inputs are the mean and variance over the unmasked entries only.", "quantifier": "all inputs, masks, axes", "why_tests_cant": "continuum", "anchors": ["neural_tangents/_src/stax/requirements.py:mean_and_var"]}
{"id": "C79", "title": "Elementwise numerical kernel quadrature is symmetric and exact on its rule", "statement": "ElementwiseNumerical equals the Gauss-Hermite quadrature of the Gaussian expectation and is exact whenever the quadrature rule integrates the polynomial exactly.", "quantifier": "all activation functions, rules", "why_tests_cant": "continuum", "anchors": ["neural_tangents/_src/stax/elementwise.py:ElementwiseNumerical"]}
{"id": "C80", "title": "Symmetry of analytic kernels under input swap", "statement": "Swapping the two inputs of any network transposes batch axes and swaps paired spatial axes of nngp and ntk and swaps cov1 with cov2.", "quantifier": "all networks built of the modelled layers, all inputs", "why_tests_cant": "ranges over all networks", "anchors": ["neural_tangents/_src/stax/combinators.py:serial", "neural_tangents/_src/stax/elementwise.py", "neural_tangents/_src/stax/linear.py"]}
{"id": "C81", "title": "Positive semidefiniteness is preserved by layers", "statement": "If the input kernel is positive semidefinite then so are the nngp and ntk produced by any composition of the modelled layers.", "quantifier": "all networks, all finite datasets", "why_tests_cant": "ranges over all networks and data sizes", "anchors": ["neural_tangents/_src/stax/linear.py:Dense", "neural_tangents/_src/stax/elementwise.py", "neural_tangents/_src/stax/branching.py"]}
{"id": "C82", "title": "Kernels treat examples independently", "statement": "For any network in evaluation mode, the kernel of selected examples (a slice, a permutation, repetitions) of two batches is the same selection from the kernel of the whole batches: an entry depends on the two examples it concerns and not on the rest of the batch.", "quantifier": "all networks whose layers do not mix examples, all batches, all selections", "why_tests_cant": "ranges over all networks and index selections", "anchors": ["neural_tangents/_src/stax/combinators.py:serial", "neural_tangents/_src/stax/linear.py", "neural_tangents/_src/stax/elementwise.py", "neural_tangents/_src/stax/requirements.py:_inputs_to_kernel"]}
{"id": "C83", "title": "Batching the kernel function of a network", "statement": "For any network in evaluation mode, nt.batch of its kernel_fn with serial batching returns the kernel that kernel_fn returns on the whole batches, for every batch size that divides them.", "quantifier": "all networks whose layers do not mix examples, all batches, batch sizes and device counts", "why_tests_cant": "ranges over all networks", "anchors": ["neural_tangents/_src/batching.py:_serial", "neural_tangents/_src/stax/combinators.py:serial", "neural_tangents/_src/stax/requirements.py:_preprocess_kernel_fn"]}
{"id": "C84", "title": "Omitting the second input", "statement": "For any network, kernel_fn(x, None) and kernel_fn(x, x) return the same nngp, ntk, cov1 and static fields; cov2 of the first is None and cov2 of the second equals cov1. Serial batching of kernel_fn(x, None) agrees with it as well.", "quantifier": "all networks built of the modelled layers, all inputs", "why_tests_cant": "ranges over all networks", "anchors": ["neural_tangents/_src/stax/requirements.py:_inputs_to_kernel", "neural_tangents/_src/stax/combinators.py:serial", "neural_tangents/_src/batching.py:_serial"]}
{"id": "C85", "title": "diagonal_batch changes what is stored and not the values", "statement": "For any network, kernels computed with diagonal_batch=True and diagonal_batch=False have equal nngp and ntk, and the within-input covariances of the first are the diagonal over examples of those of the second.", "quantifier": "all networks built of the modelled layers, all inputs", "why_tests_cant": "ranges over all networks", "anchors": ["neural_tangents/_src/stax/requirements.py:_inputs_to_kernel", "neural_tangents/_src/stax/requirements.py:Diagonal", "neural_tangents/_src/stax/combinators.py:serial"]}
{"id": "C86", "title": "diagonal_spatial layout of networks", "statement": "For any network of layers that keep positions apart, the kernel computed with diagonal_spatial=True holds exactly the equal-position entries of the kernel computed with diagonal_spatial=False; if the network continues with Flatten and arbitrary layers, both layouts give the same kernel.", "quantifier": "all networks built of the modelled layers, all inputs", "why_tests_cant": "ranges over all networks", "anchors": ["neural_tangents/_src/stax/requirements.py:Diagonal", "neural_tangents/_src/stax/linear.py:_Conv", "neural_tangents/_src/stax/linear.py:Flatten", "neural_tangents/_src/stax/combinators.py:serial"]}
{"id": "C87", "title": "Hermite kernel equals the Gaussian expectation", "statement": "For unit variances (as the layer documents) the kernel of Hermite(n) is the expectation of products of the normalised n-th Hermite polynomial over Gaussian pairs, its NTK factor that of the derivatives; the polynomial has unit norm; negative degrees are rejected.", "quantifier": "all degrees, all kernels of unit variance, all layouts", "why_tests_cant": "unbounded degree; continuum of covariances", "anchors": ["neural_tangents/_src/stax/elementwise.py:Hermite"]}
{"id": "C88", "title": "Gabor kernel equals the Gaussian expectation", "statement": "The closed forms used by Gabor for nngp, ntk and variances equal the Gaussian expectations of exp(-x^2) sin(x) and of its derivative.", "quantifier": "all non-negative variances and covariances, all layouts", "why_tests_cant": "continuum", "anchors": ["neural_tangents/_src/stax/elementwise.py:Gabor"]}
{"id": "C89", "title": "Gelu kernel equals the Gaussian expectation", "statement": "The closed forms used by Gelu for nngp, ntk and variances equal the Gaussian expectations of x Phi(x) and of its derivative.", "quantifier": "all non-negative variances and covariances, all layouts", "why_tests_cant": "continuum", "anchors": ["neural_tangents/_src/stax/elementwise.py:Gelu"]}
{"id": "C90", "title": "Automatic tangent kernel of user-defined nonlinearities", "statement": "If nngp_fn given to Elementwise is the Gaussian expectation of fn(u) fn(v), then the NTK the layer derives by automatic differentiation with respect to the covariance equals the NTK multiplied by the expectation of fn'(u) fn'(v); with d_nngp_fn given the same holds without differentiation; without nngp_fn the kernel function raises NotImplementedError.", "quantifier": "all twice differentiable functions of polynomial growth, all kernels of positive variance, all layouts", "why_tests_cant": "ranges over all functions and a continuum of covariances", "anchors": ["neural_tangents/_src/stax/elementwise.py:Elementwise", "neural_tangents/_src/stax/elementwise.py:_elementwise"]}
{"id": "C91", "title": "ExpNormalized kernel", "statement": "For gamma >= 0 the kernel of ExpNormalized is the Gaussian expectation of an exponential function of the normalised activations, its NTK factor that of the derivatives, with or without clipping; with shift=-1 variances are unchanged.", "quantifier": "all gamma, shift, all kernels of variance at least 1e-15, all layouts", "why_tests_cant": "continuum", "anchors": ["neural_tangents/_src/stax/elementwise.py:ExpNormalized"]}
{"id": "C92", "title": "Wide random networks approach the analytic kernel", "statement": "For a fully connected network of any depth with parameters drawn by init_fn, the empirical NNGP kernel of apply_fn converges in probability to the nngp returned by kernel_fn: for every tolerance and every probability there is a width such that all networks whose layers are all at least that wide are within the tolerance with that probability, in either parameterization.", "quantifier": "all depths, widths, parameterizations, W_std, b_std, all continuous nonlinearities of polynomial growth with an exact kernel, all inputs", "why_tests_cant": "a limit statement over random parameters", "anchors": ["neural_tangents/_src/stax/linear.py:Dense", "neural_tangents/_src/stax/elementwise.py:_elementwise", "neural_tangents/_src/stax/combinators.py:serial", "neural_tangents/_src/empirical.py:empirical_nngp_fn", "neural_tangents/_src/monte_carlo.py:monte_carlo_kernel_fn"]}
{"id": "C93", "title": "Wide random networks approach the analytic NTK", "statement": "For a fully connected network of any depth with parameters drawn by init_fn and a readout of any fixed width, the empirical NTK (the inner products of the gradients of outputs with respect to all parameters, as computed by empirical_ntk_fn) converges in probability to the ntk returned by kernel_fn as the hidden layers grow: for every tolerance and probability there is a width such that all networks whose hidden layers are at least that wide are within the tolerance with that probability; different output channels become orthogonal. It also holds on average over channels for wide outputs with a final nonlinearity.", "quantifier": "all depths, widths, both parameterizations, W_std, b_std, inputs; all nonlinearities of polynomial growth with bounded derivative that are smooth, or differentiable except at countably many points when the layers are random and the inputs nonzero or biases present", "why_tests_cant": "a limit statement over random parameters", "anchors": ["neural_tangents/_src/stax/linear.py:Dense", "neural_tangents/_src/stax/elementwise.py:_elementwise", "neural_tangents/_src/stax/combinators.py:serial", "neural_tangents/_src/empirical.py:empirical_ntk_fn", "neural_tangents/_src/monte_carlo.py:monte_carlo_kernel_fn"]}
{"id": "C94", "title": "Structured derivatives compute the empirical NTK", "statement": "For two networks whose parameters enter their linearizations through primitives with correct rules (or without rules), any number of times, the structured-derivatives implementation returns the contraction over all parameters of the two Jacobians with the requested traced and diagonal axes, the same array as Jacobian contraction and NTK-vector products; the backward pass accumulates the Jacobian of the output with respect to each primitive, and intersecting the structures of several uses of a parameter loses nothing. If the structures of the two networks have different numbers of axes in common it raises.", "quantifier": "all linear programs (any number and order of equations, fan-out of variables and parameters), shapes, traced and diagonal axes", "why_tests_cant": "unbounded programs and shapes, all parameter values", "anchors": ["neural_tangents/_src/empirical.py:_structured_derivatives_ntk_fn", "neural_tangents/_src/empirical.py:_backward_pass", "neural_tangents/_src/empirical.py:_get_vars_needing_cts_in", "neural_tangents/_src/empirical.py:_backprop_step", "neural_tangents/_src/utils/rules.py:get_structure_cache", "neural_tangents/_src/utils/rules.py:Structure"]}
{"id": "C95", "title": "ImageResize kernels", "statement": "If the input kernel of ImageResize holds the channel averages of second moments and tangent kernels of random activations, the output kernel holds those of the activations resized by apply_fn, whichever axes (batch, spatial) are resized, in each layout the declared requirements allow; the method may be given by name or as jax.image.ResizeMethod; methods other than linear and nearest and resizing the channel axis raise. An output is masked if and only if all inputs that contribute to it are masked. Constant channels stay constant.", "quantifier": "all shapes, sizes, numbers of axes, axis positions, layouts, distributions of activations, masks", "why_tests_cant": "ranges over all shapes, distributions and layouts", "anchors": ["neural_tangents/_src/stax/linear.py:ImageResize"]}
{"id": "C96", "title": "vmap_axes does not change the empirical NTK", "statement": "For networks that treat the examples along the axes named by vmap_axes one by one, each implementation of the empirical NTK returns the same array with vmap_axes as without: all negative or non-negative axes, mapped keyword arguments, different numbers of first and second examples, traced and diagonal axes, x2=None meaning x2=x1. Naming axes of inputs but not of the output, mapped inputs with different numbers of examples, and naming only an axis of the output of size above 1 raise ValueError.", "quantifier": "all networks, parameters, shapes, ranks, axes, keyword arguments", "why_tests_cant": "ranges over all networks, shapes and axes", "anchors": ["neural_tangents/_src/empirical.py:_jacobian_contraction_ntk_fn", "neural_tangents/_src/empirical.py:_ntk_vector_products_ntk_fn", "neural_tangents/_src/empirical.py:_get_args", "neural_tangents/_src/empirical.py:_get_f_params", "neural_tangents/_src/empirical.py:_canonicalize_axes", "neural_tangents/_src/empirical.py:_expand_dims", "neural_tangents/_src/empirical.py:_squeeze"]}
{"id": "C97", "title": "ConvTranspose kernels", "statement": "The kernel of ConvTranspose holds W_std ** 2 times the average over filter entries of the input kernel at the positions that meet the entry at the two outputs, plus b_std ** 2, for SAME, VALID and CIRCULAR padding, any filter sizes and strides, in the full and the diagonal layout and both orders of spatial axes; if the input kernel is that of random activations, the result is the kernel (NNGP and NTK) of the outputs of apply_fn with parameters drawn by init_fn, in both parameterizations. The diagonal layout holds the same covariances as the full one. Unsupported parameterizations raise.", "quantifier": "all filter sizes, strides, paddings, nonempty positions, numbers of spatial axes, layouts, distributions of activations", "why_tests_cant": "ranges over all shapes, distributions and layouts", "anchors": ["neural_tangents/_src/stax/linear.py:ConvTranspose", "neural_tangents/_src/stax/linear.py:_Conv", "neural_tangents/_src/stax/linear.py:_conv_kernel_full_spatial_transpose", "neural_tangents/_src/stax/linear.py:_conv_kernel_diagonal_spatial_transpose", "neural_tangents/_src/stax/linear.py:_pool_transpose", "neural_tangents/_src/stax/linear.py:_same_pad_for_filter_shape_transpose"]}
{"id": "C98", "title": "ConvTranspose is the transpose of Conv", "statement": "Let Conv and ConvTranspose have the same filter shape, strides, padding and axes and let the filters of one be those of the other, mirrored and with channels swapped. Then applying Conv to arrays of the shape of the outputs of ConvTranspose returns arrays of the shape of its inputs, and the inner product of ConvTranspose(x) with y is that of x with Conv(y), up to the explicit scale factors of the parameterization; in the standard parameterization with equal width factors there is none.", "quantifier": "all filter sizes, strides, paddings, nonempty positions, channels, parameters, inputs", "why_tests_cant": "ranges over all shapes and values", "anchors": ["neural_tangents/_src/stax/linear.py:ConvTranspose", "neural_tangents/_src/stax/linear.py:Conv", "neural_tangents/_src/stax/linear.py:_same_pad_for_filter_shape_transpose", "neural_tangents/_src/stax/linear.py:_same_pad_for_filter_shape"]}
{"id": "C99", "title": "Padding and masking examples does not change their kernels", "statement": "Let examples of different spatial sizes be padded to a common shape with a value m that occurs nowhere else, in one or both batches. Then kernel_fn(x1, x2, mask_constant=m) of a network of layers that support masking succeeds, its entries (nngp, ntk, cov1, cov2) for any pair of examples at positions of these examples are those of kernel_fn of the two examples alone, without padding and without mask_constant, its entries for padding are zero, and its masks mark exactly the padding; after global pooling the kernel of two examples is that of the examples alone.", "quantifier": "all networks (any depth, layer arguments), batches, ranks, axis positions, sizes and paddings of the examples, input values", "why_tests_cant": "ranges over all networks, sizes of examples and values", "anchors": ["neural_tangents/_src/stax/requirements.py:supports_masking", "neural_tangents/_src/stax/requirements.py:_get_masked_array", "neural_tangents/_src/stax/requirements.py:mean_and_var", "neural_tangents/_src/stax/linear.py:_pool_mask", "neural_tangents/_src/stax/linear.py:_GlobalPool", "neural_tangents/_src/stax/linear.py:_Conv", "neural_tangents/_src/stax/linear.py:_Pool", "neural_tangents/_src/stax/linear.py:Dense", "neural_tangents/_src/utils/kernel.py:Kernel.mask", "neural_tangents/_src/stax/combinators.py:serial"]}
{"id": "C100", "title": "Finite networks ignore padding", "statement": "Take a batch of examples of different spatial sizes, padded with mask_constant to a common shape. apply_fn(params, x, mask_constant=m) of a network of Dense, Conv, pooling, elementwise, Dropout (test), Identity and global pooling layers returns a MaskedArray whose mask marks exactly the padding. At the positions of an example its entries are those that apply_fn(params, y) returns for that example alone, without padding or mask. unmask_fn(apply_fn) returns the same entries and zeros at the padding.", "quantifier": "all batches, ranks, sizes and paddings of the examples, mask constants, positions of batch and channel axes, parameters, nonlinearities, and depths of the network", "why_tests_cant": "The padding could leak at any layer for some combination of sizes, windows, biases and nonlinearities with a nonzero value at zero; tests compare a few shapes.", "anchors": ["neural_tangents/_src/neural_tangents/_src/stax/requirements.py:supports_masking", "neural_tangents/_src/neural_tangents/_src/stax/requirements.py:_get_masked_array", "neural_tangents/_src/neural_tangents/_src/stax/requirements.py:unmask_fn", "neural_tangents/_src/neural_tangents/_src/stax/requirements.py:mean_and_var", "neural_tangents/_src/neural_tangents/_src/stax/linear.py:_GlobalPool", "neural_tangents/_src/neural_tangents/_src/stax/linear.py:_pool_mask"]}
{"id": "C101", "title": "Wide random convolutional networks have the covariance kernel_fn computes", "statement": "Draw the parameters of serial(Conv(n1), phi1, Conv(n2), phi2, ...), optionally followed by GlobalAvgPool, GlobalSumPool or Flatten, with init_fn. For each tolerance and probability there is a width such that, if all layers are at least that wide, kernel_fn of the same network succeeds and with this probability every entry of the empirical NNGP kernel (the average over channels of the products of outputs, at every pair of examples and positions) is within the tolerance of the corresponding entry of its nngp.", "quantifier": "all depths, inputs, spatial shapes and numbers of spatial axes, filter sizes, strides, paddings, standard deviations, parameterizations, continuous nonlinearities of polynomial growth with an exact kernel, layouts of the kernel", "why_tests_cant": "A limit over widths and a statement on probabilities; tests compare one width and a few samples with loose tolerances.", "anchors": ["neural_tangents/_src/stax/linear.py:_Conv", "neural_tangents/_src/stax/linear.py:_GlobalPool", "neural_tangents/_src/stax/linear.py:Flatten", "neural_tangents/_src/stax/elementwise.py:_elementwise", "neural_tangents/_src/stax/combinators.py:serial", "neural_tangents/_src/stax/requirements.py:_inputs_to_kernel", "neural_tangents/_src/empirical.py:empirical_nngp_fn", "neural_tangents/_src/monte_carlo.py:monte_carlo_kernel_fn"]}
{"id": "C102", "title": "Wide random networks of mixed layers have the covariance kernel_fn computes", "statement": "Take serial of Conv and Dense layers, each with an optional nonlinearity, AvgPool, SumPool, GlobalAvgPool, GlobalSumPool and Flatten layers, in any order in which each layer accepts the output of the one before, and draw the parameters with init_fn. For each tolerance and probability there is a width such that, if all Conv and Dense layers are at least that wide, kernel_fn of the same network succeeds and with this probability every entry of the empirical NNGP kernel (the average over channels of the products of outputs, at every pair of examples and positions) is within the tolerance of the corresponding entry of its nngp.", "quantifier": "all sequences of layers of these kinds, inputs, spatial shapes and numbers of spatial axes, filter and window sizes, strides, paddings, standard deviations, parameterizations, continuous nonlinearities of polynomial growth with an exact kernel, axes of batch and channels", "why_tests_cant": "A limit over widths and a statement on probabilities for all architectures of these layers; tests compare one width and a few samples with loose tolerances.", "anchors": ["neural_tangents/_src/stax/linear.py:_Conv", "neural_tangents/_src/stax/linear.py:Dense", "neural_tangents/_src/stax/linear.py:_Pool", "neural_tangents/_src/stax/linear.py:_GlobalPool", "neural_tangents/_src/stax/linear.py:Flatten", "neural_tangents/_src/stax/elementwise.py:_elementwise", "neural_tangents/_src/stax/combinators.py:serial", "neural_tangents/_src/stax/requirements.py:_inputs_to_kernel", "neural_tangents/_src/empirical.py:empirical_nngp_fn", "neural_tangents/_src/monte_carlo.py:monte_carlo_kernel_fn"]}
