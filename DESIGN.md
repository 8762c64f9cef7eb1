# Formal model of neural-tangents in Lean 4: design

Source: `/repo/neural_tangents` (read as text, never run). Lean 4.33.0 + Mathlib.
Lake project: `lean/`. All modules are in `lean/Verif/`.

## 1. Layout of the development

* `Verif/Model/*.lean`: the model. One file per source file (large source files
  are split). Each definition cites the lines of `/repo` it models and says
  what was simplified. Exceptions are values (`Except Err _`).
* `Verif/Spec/*.lean`: small specifications, written without the model's
  helpers (index arithmetic, expectations, ODEs, covariance of random
  functions).
* `Verif/Lemmas/*.lean`: auxiliary lemmas.
* `Verif/Props/Cxx.lean`: the property theorems. Beside each theorem an
  `example` exhibits a non-trivial case meeting its hypotheses.

## 2. Trusted base

* Lean's kernel, and the axioms `propext`, `Classical.choice`, `Quot.sound`
  (audited with `tools/axioms.py`, see section 6). No other axiom is used; there
  is no `sorry`, `native_decide` or `bv_decide`.
* The correspondence between the Lean model and the Python text. It is by
  reading only; the comments on the definitions are the evidence.
* Numbers. Floating-point numbers are modelled as real numbers (or as elements
  of an arbitrary commutative ring or field when nothing else is used).
  Rounding, overflow, NaN propagation and dtype promotion are not modelled.
  Lean's `x / 0 = 0`: theorems assume that the divisors of the code are not
  zero, or say explicitly that they are (`C47.variance_divisor_zero`,
  `C48.zero_variance_divisor`, `C61.singular_divides_by_zero`).
* JAX / NumPy primitives are modelled by their documented meaning, not by their
  implementation: `reshape`, `transpose`, `moveaxis`, `where`, `dot_general`,
  `einsum` (with broadcasting of axes of size 1), `conv_general_dilated(_local)`,
  `reduce_window`, `padtype_to_pads`, `pad`, `segment_sum` (which drops numbers
  out of range), `softmax`, `polyval`, `erf`, `arctan2`. `jit`, `pmap` and `vmap`
  mean: apply the function (on each slice). `lax.scan` also checks that the
  carry keeps its static data.
* `predict.py` takes `eigh`, the Cholesky solver and the iteration order of a
  set from a record `Backend`, assumed correct (`Backend.Correct`: an orthogonal
  diagonalisation of a symmetric matrix, the solution of a positive definite
  system, an enumeration of the set). `C61` shows that a correct backend exists.
  `odeint` and the gradient of the loss are parameters (`C68`), `eigvalsh` too
  (`C67`).
* `empirical.py`: `jacobian`, `jvp`, `vjp`, `linear_transpose` are the Fréchet
  derivative, its values, its adjoint and the transpose of a linear map.
* Iteration over sets of axes is taken to be in increasing order where the code
  relies on it (true in CPython for integers below 8; the code relies on it for
  every rank).
* Random numbers: PRNG keys are an abstract type with abstract `split` /
  `fold_in`; statements on distributions use measure-theoretic random
  variables with the stated moments. Exactness of nonlinearities is stated for
  Gaussian pre-activations with the given covariance (that is what `is_gaussian`
  stands for). For fully connected networks C92 and C93 prove the convergence of
  the empirical kernels of random finite networks as the width grows, and C101 and C102
  do so for the NNGP kernel of networks with convolutions and pooling.

Not modelled: device placement and sharding, `jit` compilation and its
options, pytrees of outputs in `empirical.py`, `vmap_axes` of structured derivatives, `jax.linearize`
itself (C94 starts from the linear program it returns), FLOP estimates,
masks of `ConvTranspose`, permuted `dimension_numbers`, `experimental/`,
warnings and logging, the flax / haiku wrappers, dataset and plotting helpers.

## 3. Common model

* `Arr α`: an n-dimensional array is a shape (`List Nat`) and a total function
  from multi-indices (`List Nat`) to values. Two arrays are equal (`≈`) when
  shapes agree and values agree on every in-range multi-index. `transpose`,
  `moveaxis` (numpy's insertion algorithm), `reshape` (row-major
  ravel/unravel), `take`, `stack`, `broadcast`, `diagonal`, `where`, `einsum`
  are defined on it.
* `Kernel`: the record of `utils/kernel.py`, with arrays as above.
* `Logical`: the covariances of two batches as plain functions of (example,
  position) pairs, and `Kernel.Stores k L`: the kernel `k` holds the numbers of
  `L` in the layout given by its flags `diagonal_batch`, `diagonal_spatial`,
  `is_reversed`. A property of a layer reads: if `k` stores `L`, the result
  stores the transformed `L`.
* `KernelOf`, `ChannelKernelOf`, `GaussPair`: what the covariances and tangent
  kernels of random functions are (`Spec/RandomFn`, `Spec/Channels`,
  `Spec/GaussPair`). Exactness of a layer reads: if `L` is the kernel of the
  random activations, the transformed `L` is the kernel of the outputs of the
  layer's `apply_fn` with random parameters.

## 4. Plan per property

| id | what is modelled | how it is proved |
|----|------------------|------------------|
| C01 | `_scan`, `_flatten_*`, `_serial`, `Kernel.slice` | refinement to the unbatched function; index arithmetic |
| C02 | `_get_n_batches_and_batch_sizes` | arithmetic (`Nat.div_add_mod`) |
| C03 | `_parallel`, `_reshape_kernel_for_pmap` | refinement to the unbatched function |
| C04 | `batch` = serial after parallel | composition of C01 and C03 |
| C05 | `_serial` on kernels | refinement, slices of kernels |
| C06 | the caches of `_jit_or_pmap_broadcast` as a state machine | induction over histories; false in general: witness |
| C07 | `_scan` | induction on the sequence |
| C08-C10 | sampler loop, generator as the list of its yields, validation | induction on the number of draws |
| C11-C15 | `zip_axes`, `unzip_axes`, `reverse_zipped`, `make_2d`, `diagonal_between`, `outer_prod` | general lemma on `moveaxis` with sorted destinations, list induction |
| C16 | `canonicalize_axis`, `mod` | case analysis on integers |
| C17 | `nt_tree_fn` over trees | structural induction |
| C18, C19 | `get_namedtuple`, `canonicalize_get` | case analysis; C19 false in general: witnesses |
| C20 | `_read_keys`, `split_kwargs` with abstract keys | case analysis |
| C21 | `canonicalize_idx`, `slice_shape` | list induction, Python slices |
| C22 | `axis_after_dot` | counting |
| C23 | dataclass as a list of classified fields | list induction |
| C24 | Kernel `*`, `+` | linearity of expectation |
| C25-C27 | Kernel `mask`, `transpose`, `__getitem__` | index lemmas from C11/C12 over the four layouts |
| C28 | Kernel `dot_general` | einsum as a sum over assignments of labels; refinement to `lax.dot_general` of activations; with exactly one array, a free axis of it makes the call raise (`one_array_raises`) |
| C29 | `Bool`, `Diagonal` | exhaustive over the whole finite domain |
| C30, C31 | requirement folding over layer trees | induction on trees; witnesses of failure |
| C32-C34 | `serial`, `parallel`, `repeat` of layers as triples of functions | induction on lists |
| C35 | `_inputs_to_kernel`, `_cov*` | index lemmas |
| C36, C37 | `_fuse_requirements`, `_preprocess_kernel_fn`; gaussianity flags | case analysis, induction on layer lists |
| C38-C40 | `FanInSum`, `FanInProd`, `FanInConcat` | list induction; sums, products and concatenations of independent random functions |
| C41 | masks of fan-in layers | list induction |
| C42, C43 | `Exp`, `Sin`, `Cos`, `Rbf` | characteristic function and mgf of Gaussian pairs |
| C44 | `ABRelu` and its instances | polar coordinates, arc-cosine integrals |
| C45 | `Sign` | arc-cosine integral of degree 0; off-diagonal entries wrong: witness |
| C46 | `Erf`, `Sigmoid_like` | differentiation in the correlation |
| C47 | `Monomial`, `RectifiedMonomial` | Isserlis moments; recursion of the arc-cosine kernels |
| C48 | `Polynomial` | Hermite expansion |
| C49 | `Gaussian` | Gaussian integrals |
| C50, C51 | formulas over the reals | real algebra; `RectifiedMonomial` divides by zero at the diagonal, there the limit is taken (`rectified_limit_partial`) |
| C52 | `Dense`: init, apply, kernel, mask | expectation over independent parameters |
| C53 | `Conv`, `ConvLocal` | windows as finite sums; expectation over parameters; witness for reversed kernels |
| C54, C55, C60 | pooling, `Flatten`, padding | windows as finite sums |
| C56 | `Dropout` | expectation over independent flags |
| C57, C78 | `LayerNorm`, `mean_and_var` | grouped sums; witnesses |
| C58 | `Aggregate`, dense and sparse | `dot_general` (C28) and segment sums; refinement of one to the other |
| C59 | `GlobalSelfAttention`, both scalings | einsum lemma; softmax over the reals; exactness of linear maps; for square root scaling the output is a polynomial of degree one in each of four independent matrices (`Lemmas/Attention9`), so its second moments are sums of products of coefficients |
| C61-C63 | `gradient_descent_mse` | spectral calculus with an abstract orthogonal diagonalisation; derivative and limits |
| C64, C65 | `gp_inference`, `gradient_descent_mse_ensemble` | Schur complement; linear functions of Gaussian vectors |
| C66 | caches of the predictors as a state machine | induction over histories; witness |
| C67 | `max_learning_rate` | spectrum of the iteration matrix |
| C68 | `gradient_descent` with an abstract `odeint` | the right-hand side is the gradient flow in function space |
| C69 | validation of the predictors | case analysis |
| C70, C71 | `linearize`, `taylor_expand` | iterated line derivatives; Taylor polynomial |
| C72 | Jacobian contraction, NTK-vector products | both are sums of products of partial derivatives; index arithmetic of `_trace_and_diagonal` |
| C73 | symmetry and positivity of empirical kernels | Gram matrices |
| C74 | `_dot_general` | C22, C11 |
| C75 | `empirical_ntk_vp_fn` | adjoint of the derivative |
| C76 | rules of the primitives in `rules.py` and the compact Jacobian | each rule refines to the full Jacobian, for every part of the declared structure |
| C77 | `Structure.__and__` | list induction; witnesses |
| C79 | `ElementwiseNumerical` | exactness of quadrature on polynomials |
| C80 | networks as an inductive type over the modelled layers; masked inputs as in C99 | induction on the network; masked: the tree of C99 with the two inputs exchanged |
| C81 | as C80 | Gram representations; Gaussian field with the given covariance |
| C82 | as C80; a selection of examples as a pair of index maps | induction on the network: selecting commutes with every layer; masked: both kernels agree with the kernel of the two examples alone (C99) |
| C83 | kernel function of a network: input kernel, then the layers | C82 with one-example selections gives the pairwise form C01 asks for |
| C84 | the same network run on the kernel of `(x, None)` and of `(x, x)` | the state of the second is the completion of the first at every layer (`Lemmas/Explicit`), then C80 soundness for both; with masks and branches a simulation of the two runs, step by step, for success (`Lemmas/NoneSelf`, `NoneSelfNet`) and for errors (`NoneSelfErr`), no shapes assumed; the same simulation for all layers without masks (`NoneSelfAll`, `none_is_self`) |
| C85 | the same network run on both `diagonal_batch` layouts | layer semantics do not mention the flag; C80 soundness for both (masked: C99); arrays compared entry by entry |
| C86 | the same network run on both `diagonal_spatial` layouts | layers of `Local` only need equal positions; `Flatten` forgets the layout; C80 soundness for both |
| C87 | closed form of `Hermite`; the polynomial by its three-term recurrence | Stein's identity for polynomials; derivatives of Hermite polynomials |
| C88 | closed form of `Gabor` | tilting by `exp(-x^2-y^2)` gives another Gaussian pair; Stein's identity for trigonometric functions |
| C89 | closed form of `Gelu` | Stein's identity reduces the expectations to `E[phi phi]` (tilting) and `E[Phi Phi]` (erf, C46) |
| C90 | `Elementwise` with `nngp_fn` and `d_nngp_fn`; automatic differentiation is the derivative | Price's theorem: differentiate `E[phi(u) phi(v)]` under the integral in a Cholesky parametrisation, then Stein's identity; the fully correlated boundary by continuity; the example of the documentation satisfies the conditions |
| C91 | `ExpNormalized` | moment generating function of a Gaussian pair; clipping is void by Cauchy-Schwarz |
| C92 | `init_fn` (law of the parameters) and `apply_fn` of `serial(Dense, phi, ...)` of `Spec/Wide`, `kernel_fn` of the same network, `empirical_nngp_fn` | induction on the depth: given the previous layers, the channels of a wide layer are independent and Gaussian with the empirical covariance, so Chebyshev's inequality bounds the deviation of the channel average from `E[phi(u) phi(v)]`, which is continuous in the covariance (`Lemmas/GaussCont`, via the square root of 2x2 matrices), including degenerate ones; `tracks` shows that `kernel_fn` computes the limit |
| C93 | as C92, with gradients with respect to all parameters (`Lemmas/WideGrad`) and `empirical_ntk_fn` (Jacobian contraction, `Model/EmpiricalNtk`) | induction on the depth over two statements: the channel average of the tangent kernel converges, and its squared Frobenius norm over channel pairs divided by the square of the width vanishes; given the previous layers, a quadratic form in the Gaussian weights has its mean at the trace and a variance bounded by the Frobenius norm (Isserlis, `Lemmas/Isserlis`, `Lemmas/WideNtk`); nonlinearities with kinks: the preactivations avoid countable sets almost surely (`Lemmas/GaussAe`, `Lemmas/WideLoc`), where either the nonlinearity is differentiable or the whole channel vanishes near the parameters |
| C94 | `_structured_derivatives_ntk_fn` with the backward pass, the structure cache and the contraction (`Model/Structured`) | the linear program has a forward semantics (`Spec/Linear`); the backward pass is its adjoint (induction over equations); a compact Jacobian stands for the full one (C76) and the labelled `einsum` of two uses is the contraction (label bookkeeping in `Lemmas/Structured*`); sums over uses and leaves |
| C95 | `ImageResize` (`Model/Resize`): `apply_fn`, `kernel_fn`, `mask_fn`, declared requirements, with `jax.image.resize` as weighted sums along the axes | weights of interleaved, reversed, unchanged axes factor; examples and positions treated as one index, then the linear-map argument of C54; linear and nearest weights are non-negative and add up to one. Fails for reversed axes with asymmetric output sizes and for methods given as an enum |
| C96 | `vmap_axes` of Jacobian contraction and NTK-vector products | `vmap` as stacking of the results for single examples; the Jacobian of a network that treats examples one by one is the stack of those for single examples; partial: structured derivatives |
| C97 | `ConvTranspose` | `lax.conv_transpose`, the circular fold and the two kernel routines as functions on arrays; folding is reading modulo the output size; the layer is linear in its parameters, as in C53 |
| C98 | `ConvTranspose` and `Conv` | the reads of one are those of the other backwards, for each axis and filter entry; then exchange of sums |
| C99 | masks through networks: `supports_masking`, the mask functions, masked means, `serial` | an invariant of padded batches (zero padding, exact masks) and a simulation of the network on each example alone, layer by layer, then induction over the layers, and over networks with branches (`Model/MaskedTree.lean`: `FanOut`, `parallel`, sums and products of branches with `_sum_masks`, concatenation along the channels with `_concat_masks`); partial: convolutions and local pooling with padding `'SAME'`, unit strides, fixed divisor; nonlinearities that mask their output or keep zero |
| C100 | `Model/MaskedApply.lean`: `_get_masked_array`, `apply_fn_with_masking`, masked means of global pooling, `unmask_fn` and `serial` on `MaskedArray`s, with the layers' `apply_fn`s of the earlier models. | Invariant through the layers: the batch agrees with the example alone at its positions, is zero at the padding after masking, and the mask marks exactly the padding; each layer keeps it (a tap of a `'SAME'` convolution outside the example reads either padding or a zero; the mean divides by the number of unmasked positions). Partial for the same reasons as C99: strides, `'VALID'`/`'CIRCULAR'`, normalised edges, attention, `LayerNorm` over positions (`layerNorm_positions_sees_padding` shows that it sees the padding), `Flatten` are left out. `Model/MaskedBranch.lean` adds `FanOut`, `parallel`, `FanInSum` and `FanInProd` (masks by `_sum_masks`) and `FanInConcat` along the channels (masks by `_concat_masks`); induction over the network, sums and products of branches by induction over the branches; `fan_in_entries` states what the fan-in layers compute. |
| C101 | `init_fn` (law of the parameters) and `apply_fn` of `serial(Conv, phi, ...)` with shared weights of `Spec/WideConv`, then global pooling or `Flatten`; `kernel_fn` of the same network | as C92, with patches in place of channels: given the previous layers, the outputs of a wide `Conv` at the positions of the examples are jointly Gaussian with the empirical covariance of the patches, and independent between channels. Heads: the pooled (flattened) average is a weighted sum of finitely many converging entries. Missing: the NTK (pooling between the layers: C102) |
| C102 | `Spec/WideDeep`: `init_fn` (law of the parameters), `apply_fn` and `kernel_fn` of `serial` of `Conv`, `Dense`, nonlinearities, pooling, global pooling, `Flatten` in any order | induction over the layers with the invariant `Limit` (the channel averages at valid positions converge in probability to a function `K`, whatever `K` is) and `Tracks` (the kernel of the model has the entries `K`). `Conv`/`Dense`: conditional law of large numbers of C92/C101. Pooling: linear in the positions, so the averages are fixed finite combinations. Limits of covariances are positive semidefinite because the set is closed. Missing: the NTK; pooling of kernels in the diagonal layout |

No property on the list is outside what can be expressed. What is proved of
each, and what is missing from the partial ones, is in the notes of
`MANIFEST.json`.

## 5. Disagreements between code and stated behaviour

Found by trying to prove the property; each has a theorem with a concrete
witness unless marked (not proved).

Results that are wrong:

* C30 `skip_branch_wrong`: `serial(FanOut(2), parallel(ConvLocal, Identity),
  FanInSum, GlobalAvgPool)` computes only spatial diagonals and pools them, since
  `Identity` declares no requirement.
* C45 `offdiag_wrong`: `Sign` sets off-diagonal entries of `cov1`, `cov2` to 0
  or 1 (elementwise.py:536-541).
* C95 `resize_reversed_wrong`: `ImageResize` ignores `is_reversed` (linear.py:2809-2827); after a
  convolution on images the output sizes are given to the wrong axes.
* C53 `local_reversed_wrong`: `ConvLocal` ignores `is_reversed`
  (linear.py:1346-1352).
* C54 `diag_circular_wrong`: circular pooling in the diagonal layout with a
  window longer than the axis.
* C55 `mask_misplaced`: `Flatten.mask_fn` moves the batch axis to
  `batch_axis_out`, `apply_fn` to `-batch_axis_out` (linear.py:1862, 1904).
* C57 `negative_batch_axis_wrong`: `LayerNorm` compares axes with the batch axis
  as given (linear.py:2533-2534).
* C58 `sparse_reversed_wrong`: sparse `Aggregate` ignores `is_reversed`
  (linear.py:648-663); `negative_sender_wrong`: an edge with a negative sender and
  a non-negative receiver is not ignored but sends the last vertex.
* C59 `softmax_masked_uniform`, `softmax_masked_inverted`: `kernel_fn` multiplies
  by `W_query_std * W_key_std` after masking with a large negative number
  (linear.py:2365), so that factors that are not positive give masked positions
  weight.
* C66 `history_dependent`: after a call for the mean at infinite time the call for
  the covariance raises, although it succeeds if it comes first (the predictor
  stored at predict.py:887-892 lacks the NNGP kernel).
* C96 `none_disagree`: with `vmap_axes`, `x2=None` and a keyword argument that is a
  pair, NTK-vector products use its second half for the second network, Jacobian
  contraction its first half for both (empirical.py:682 sets `x2 = x1` before
  `_get_f1_f2`).  `input_axis_missing`: naming only the axis of the output squeezes
  it although nothing is mapped.  Unproved observation: structured derivatives with
  an output axis other than 0 compare the sizes of traced axes before the mapped
  axis is moved to its place (empirical.py:751, 770), so they raise
  `AssertionError` for traced axis 0 and different numbers of examples.
* C99 `constant_counts_padding`: `Monomial(0)` does not mask its output
  (`supports_masking(remask_kernel=False)`, elementwise.py:752-836), so that a sum
  over positions after it counts the padding.  `diagonal_average_counts_padding`:
  in the layout of the diagonal of the positions `GlobalAvgPool` divides by the
  padded size (linear.py:1782-1783).  `flatten_counts_padding`: the kernel of
  `Flatten` divides by the padded size (linear.py:1882).  Unproved observation: `RectifiedMonomial`
  and `Polynomial` divide by the variances without tolerance, which are zero at
  padding, and do not mask their output.
* C72 `repeated_trace_axis_disagree`: repeated axes in `trace_axes` are counted
  twice in the normalisation of one implementation (empirical.py:553).
* C100 `layerNorm_positions_sees_padding`: for the same reason as C78, `LayerNorm`
  over positions gives a padded and masked example other outputs than the example alone.
  `valid_pooling_sees_padding`: with padding `'VALID'` the mask is sliced
  (linear.py:3739-3745), so windows over the end of an example count as data.
  `strides_see_padding`: with padding `'SAME'` and strides the zeros added in front
  depend on the length of the batch, so the windows of a padded example differ;
  `circular_pooling_raises`: local pooling with padding `'CIRCULAR'` raises on masks;
  `circular_convolution_sees_padding`: `Conv` with padding `'CIRCULAR'` runs, and the
  masked positions, not the last word, precede the first word of a padded example;
  `normalized_edges_see_padding`: `normalize_edges=True` counts masked positions
  as inside the array.
* C78 `masked_var_wrong`: masked entries add the squared mean to the variance
  (requirements.py:1152).
* C26 `reversed_wrong`: `Kernel.transpose` ignores `is_reversed`.
* C25 `second_mask_missing_wrong`: if only the second mask is missing the first
  one is used for it.
* C31 `nesting_matters`, `batch_requirement_lost`, `batch_allowance_lost`:
  `diagonal_batch` is a Python bool folded with the bit shift `>>`.
* C01 `x1_is_x2_not_transparent`: a batched call reports the `x1_is_x2` of its
  first tile, so different datasets that start alike are reported equal.
* C83 `masked_batching_raises`: with masks a batched call for a `Kernel` and a second
  input always raises, since `mask2` is negated with unary minus (batching.py:232);
  with several devices and a batch size it also raises without a second input.
* C06 `not_history_independent`: after a call on a `Kernel` a call with `x2`
  loses it, since the cache key ignores the number of positional arguments.
* C19 `default_index_error`, `default_wrong`: if required parameters are passed
  by keyword the default of `get` is looked up at the wrong index.
* C65 `prior_train_regularised`: the ensemble covariance at the training points
  at time 0 includes the regulariser.
* C64 `missing_test_kernel_ignored`, C33 `missing_branch_dropped`, C17
  `lengths_not_checked`: arguments that are missing are ignored silently.
* C32 `shape_depends_on_nesting`, `keys_depend_on_nesting`; C34
  `same_key_every_time`: `repeat` passes the same key to each repetition.
* C77 `in_broadcast_not_common`, `diagonal_not_common`; C76
  `reshape_dimensions_wrong` (rules.py:957-1001).

Division by zero where the limit exists: C47 `variance_divisor_zero`, C48
`zero_variance_divisor`, C61 `singular_divides_by_zero`. Eigenvalues that are
clipped: C61 `train_flow_clipped`.

Calls that raise although the documentation allows them: C25
`first_mask_missing`, C26 `scalar_ntk_raises`, C31 `parallel_flatten_raises`, C34
`flip_once_raises`, C41 `concat_mixed_raises`, C51 `stabilize_empty`, C56
`scalar_ntk_raises`, C76 `broadcast_in_dim_expanding_raises`,
`denominator_raises`, C95 `resize_enum_raises` (`_method` is unbound unless `method`
is a string, linear.py:2789-2792).

Seen in the text while modelling (not proved): batching.py:232 negates a Python
bool; batching.py:552 `getattr(kwargs, 'rng', None)` on a dict is always `None`;
`slice_shape` raises for sizes `None`; `_sum_masks` ignores branches without a
mask; linear.py:1450 and 1422 transpose with the inverse permutation;
linear.py:1239-1262 `ConvLocal` with standard parameterization ignores `s[1]`;
`ElementwiseNumerical` is NaN at zero
variance; `Rbf` with a negative `gamma` is NaN; `taylor_expand` with a negative
degree recurses until Python gives up (stated in C71); `size_at` raises for an
integer `trace_axes`; several functions rely on sets of axes being iterated in
increasing order, which CPython does not promise.

## 6. Axioms

Output of `tools/axioms.py` (axioms of every theorem named in `MANIFEST.json`):

```
509 theorems
440 theorems: Classical.choice, Quot.sound, propext
40 theorems: Quot.sound, propext
22 theorems: propext
7 theorems: none
```

## 7. Seeded bugs

`tools/mutate.py` applies a list of edits (`tools/mutants/*.json`) to a copy of
the model outside `/verif`, one at a time, and rebuilds. `seeded/LOG.jsonl` has
one line per edit: the definition, the edit, the property it breaks, the theorems
that failed, the theorems tightened in response.
