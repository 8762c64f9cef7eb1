import Verif.Model.Rules

/-!
# Rules of `conv_general_dilated`

`neural_tangents/_src/utils/rules.py`, lines 390-543, and the documented meaning of `lax.conv_general_dilated` and `lax.conv_general_dilated_patches`
(JAX, not part of `/repo`).  Precisions and element types are not modelled.
-/

namespace NT.Rules
open NT Arr
variable {α : Type}

/-- The parameters of `conv_general_dilated`: a spec lists the axes of batch (of output features, for the filter), of features (of input features), and of each
spatial dimension; the other lists are by spatial dimension. -/
structure ConvParams where
  lhsSpec : List ℕ
  rhsSpec : List ℕ
  outSpec : List ℕ
  strides : List ℕ
  padding : List (ℤ × ℤ)
  lhsDilation : List ℕ
  rhsDilation : List ℕ
  featureGroups : ℕ
  batchGroups : ℕ

namespace ConvParams

/-- The number of spatial dimensions. -/
def dims (p : ConvParams) : ℕ := p.rhsSpec.length - 2

/-- The list with the entry `v[j]` at the axis `spec[j]`. -/
def place (spec v : List ℕ) : List ℕ := (List.range spec.length).map fun x => v.getD (spec.idxOf x) 0

/-- The entries at the spatial axes. -/
def spatial (spec k : List ℕ) : List ℕ := gather (spec.drop 2) k

/-- The position in the operand that meets the filter at `q` for the output position `y`, in the dilated operand, counted from its first entry. -/
def pos (p : ConvParams) (i y q : ℕ) : ℤ := y * p.strides.getD i 0 + q * p.rhsDilation.getD i 0 - (p.padding.getD i (0, 0)).1

/-- The entry of the padded and dilated operand, for the output position `y` and the filter position `q`. -/
def read [Zero α] (p : ConvParams) (lhs : Arr α) (b c : ℕ) (y q : List ℕ) : α :=
  let pos := fun i => p.pos i (y.getD i 0) (q.getD i 0)
  if ∀ i, i < p.dims → 0 ≤ pos i ∧ pos i % p.lhsDilation.getD i 0 = 0 ∧ pos i / p.lhsDilation.getD i 0 < (lhs.shape.getD (p.lhsSpec.getD (i + 2) 0) 0 : ℕ) then
    lhs.get (place p.lhsSpec (b :: c :: (List.range p.dims).map fun i => (pos i / p.lhsDilation.getD i 0).toNat))
  else 0

/-- The size after dilation. -/
def dilate (n d : ℕ) : ℕ := if n = 0 then 0 else (n - 1) * d + 1

/-- The size of the output in the spatial dimension `i`, for an operand of size `n` and a filter of size `k`. -/
def outSize (p : ConvParams) (i n k : ℕ) : ℕ :=
  let padded : ℤ := dilate n (p.lhsDilation.getD i 0) + (p.padding.getD i (0, 0)).1 + (p.padding.getD i (0, 0)).2
  let filter : ℤ := dilate k (p.rhsDilation.getD i 0)
  if padded < filter then 0 else ((padded - filter) / p.strides.getD i 0 + 1).toNat

/-- The shape of the output; `ks` are the sizes of the filter by spatial dimension. -/
def outShape (p : ConvParams) (batch features : ℕ) (lhs ks : List ℕ) : List ℕ :=
  place p.outSpec (batch :: features :: (List.range p.dims).map fun i => p.outSize i (lhs.getD (p.lhsSpec.getD (i + 2) 0) 0) (ks.getD i 0))

/-- The checks of `lax.conv_general_dilated`, on the shapes of the operands: specs are permutations of the axes, a parameter for each spatial dimension,
positive strides and dilations, and groups that divide. -/
def Valid (p : ConvParams) (lhs rhs : List ℕ) : Prop :=
  (2 ≤ rhs.length ∧ lhs.length = rhs.length) ∧
  (p.lhsSpec.Perm (List.range rhs.length) ∧ p.rhsSpec.Perm (List.range rhs.length) ∧ p.outSpec.Perm (List.range rhs.length)) ∧
  (p.strides.length = p.dims ∧ p.padding.length = p.dims ∧ p.lhsDilation.length = p.dims ∧ p.rhsDilation.length = p.dims) ∧
  ((∀ s ∈ p.strides, 0 < s) ∧ (∀ s ∈ p.lhsDilation, 0 < s) ∧ ∀ s ∈ p.rhsDilation, 0 < s) ∧
  (0 < p.featureGroups ∧ 0 < p.batchGroups ∧ (p.featureGroups = 1 ∨ p.batchGroups = 1)) ∧
  (lhs.getD (p.lhsSpec.getD 1 0) 0 = p.featureGroups * rhs.getD (p.rhsSpec.getD 1 0) 0 ∧ p.featureGroups ∣ rhs.getD (p.rhsSpec.getD 0 0) 0 ∧
    p.batchGroups ∣ rhs.getD (p.rhsSpec.getD 0 0) 0 ∧ p.batchGroups ∣ lhs.getD (p.lhsSpec.getD 0 0) 0)

instance (p : ConvParams) (lhs rhs : List ℕ) : Decidable (p.Valid lhs rhs) := by unfold Valid; infer_instance

/-- `lax.conv_general_dilated(lhs, rhs, ...)`.  With groups of features, the output features of group `g` read the input features of group `g`; with groups
of the batch they read the inputs of group `g`. -/
def conv [Zero α] [Add α] [Mul α] (p : ConvParams) (lhs rhs : Arr α) : Except Err (Arr α) :=
  if p.Valid lhs.shape rhs.shape then
    let features := rhs.shape.getD (p.rhsSpec.getD 0 0) 0
    let batch := lhs.shape.getD (p.lhsSpec.getD 0 0) 0 / p.batchGroups
    let ks := spatial p.rhsSpec rhs.shape
    .ok ⟨p.outShape batch features lhs.shape ks, fun k =>
      let b := k.getD (p.outSpec.getD 0 0) 0
      let o := k.getD (p.outSpec.getD 1 0) 0
      let y := spatial p.outSpec k
      sumOver (rhs.shape.getD (p.rhsSpec.getD 1 0) 0 :: ks) fun cq =>
        p.read lhs (o / (features / p.batchGroups) * batch + b) (o / (features / p.featureGroups) * rhs.shape.getD (p.rhsSpec.getD 1 0) 0 + cq.getD 0 0) y (cq.drop 1) *
          rhs.get (place p.rhsSpec (o :: cq))⟩
  else .error .typeError

/-- The axes of the filter that are spatial, in increasing order. -/
def filterAxes (p : ConvParams) : List ℕ := (List.range p.rhsSpec.length).filter fun i => i ∈ p.rhsSpec.drop 2

/-- The entries by axis of the filter, in the order of the spatial dimensions. -/
def byDim (p : ConvParams) (q : List ℕ) : List ℕ := (p.rhsSpec.drop 2).map fun x => q.getD (p.filterAxes.idxOf x) 0

/-- `lax.conv_general_dilated_patches(lhs, filter, ...)`: the feature number `c * prod(filter) + r` of the output is the input feature `c` at the position
number `r` of the window.  (JAX convolves each input feature with the standard basis of filters, reshaped to the spatial axes of the filter in
increasing order.) -/
def patches [Zero α] (p : ConvParams) (lhs : Arr α) (filter : List ℕ) : Arr α :=
  ⟨p.outShape (lhs.shape.getD (p.lhsSpec.getD 0 0) 0) (lhs.shape.getD (p.lhsSpec.getD 1 0) 0 * filter.prod) lhs.shape (p.byDim filter), fun k =>
    let f := k.getD (p.outSpec.getD 1 0) 0
    p.read lhs (k.getD (p.outSpec.getD 0 0) 0) (f / filter.prod) (spatial p.outSpec k) (p.byDim (unravel filter (f % filter.prod)))⟩

end ConvParams

/-- The shape of the result of `lax.conv_general_dilated`. -/
def convOut (p : ConvParams) (lhs rhs : List ℕ) : List ℕ :=
  p.outShape (lhs.getD (p.lhsSpec.getD 0 0) 0 / p.batchGroups) (rhs.getD (p.rhsSpec.getD 0 0) 0) lhs (ConvParams.spatial p.rhsSpec rhs)

/-- `_conv_general_dilated_s`, rules.py:390-432; only the filter (`idx = 1`) is supported. -/
def convS (p : ConvParams) (idx : ℕ) (lhs rhs : List ℕ) : Except Err Structure :=
  if idx ≠ 1 then .error .notImplemented
  else if rhs.getD (p.rhsSpec.getD 0 0) 0 = p.featureGroups ∧ rhs.getD (p.rhsSpec.getD 1 0) 0 = 1 then
    if lhs.getD (p.lhsSpec.getD 1 0) 0 = p.featureGroups then
      .ok { inDiagonal := [[some (p.lhsSpec.getD 1 0), some (p.rhsSpec.getD 0 0)]], outDiagonal := [p.outSpec.getD 1 0] }
    else .error .assertion
  else if lhs.getD (p.lhsSpec.getD 0 0) 0 = p.batchGroups ∧ rhs.getD (p.rhsSpec.getD 0 0) 0 = p.batchGroups then
    .ok { inDiagonal := [[some (p.lhsSpec.getD 0 0), some (p.rhsSpec.getD 0 0)]], outDiagonal := [p.outSpec.getD 1 0] }
  else if p.batchGroups = p.featureGroups ∧ p.featureGroups = 1 then
    .ok { inTrace := [p.rhsSpec.getD 0 0], inTraceIdxs := [idx], outTrace := [p.outSpec.getD 1 0] }
  else .ok {}

/-- `jnp.vectorize(jnp.diag, signature='(k)->(k,k)')`. -/
def diagLast [Zero α] (a : Arr α) : Arr α :=
  ⟨a.shape ++ [a.shape.getLastD 0], fun k => if k.getD (a.ndim - 1) 0 = k.getD a.ndim 0 then a.get (k.take a.ndim) else 0⟩

/-- `jnp.kron(a, b)` of arrays of equal rank. -/
def kron [Mul α] (a b : Arr α) : Arr α :=
  ⟨List.zipWith (· * ·) a.shape b.shape, fun k => a.get (List.zipWith (· / ·) k b.shape) * b.get (List.zipWith (· % ·) k b.shape)⟩

/-- `_conv_general_dilated_j`, rules.py:434-524, up to the line 514 (the Jacobian of one feature in each group).  `n` is the rank. -/
def convBlocks [Zero α] (p : ConvParams) (inp : List ℕ) (lhs : Arr α) (n : ℕ) : Except Err (Arr α) :=
  let channels := lhs.shape.getD (p.lhsSpec.getD 1 0) 0
  let o0 := p.outSpec.getD 0 0
  let o1 := p.outSpec.getD 1 0
  let filter := ((List.range n).filter fun i => i ∈ p.rhsSpec.drop 2).map fun i => inp.getD i 0
  let fAxes := (p.rhsSpec.drop 2).mergeSort
  let j := p.patches lhs filter
  if 1 < p.batchGroups then do
    let j := j.moveaxis [o0, o1] [n - 1, n - 2]
    let j ← j.reshapeE (j.shape.take (n - 2) ++ (channels :: filter) ++ [p.batchGroups, lhs.shape.getD (p.lhsSpec.getD 0 0) 0 / p.batchGroups])
    let j := j.moveaxis [j.ndim - 1, j.ndim - 2] [j.ndim - 2, j.ndim - 1]
    let j := diagLast j
    .ok (j.moveaxis (List.range' (n - 2) (j.ndim - (n - 2)))
      ((n + p.rhsSpec.getD 1 0) :: fAxes.map (n + ·) ++ [o0, o1, n + p.rhsSpec.getD 0 0]))
  else do
    let j := j.moveaxis [o1] [n - 1]
    let j ← j.reshapeE (j.shape.take (n - 1) ++ ([p.featureGroups, channels / p.featureGroups] ++ filter))
    let j := j.moveaxis [n - 1, n] [j.ndim - 1, j.ndim - 2]
    let j := diagLast j
    .ok (j.moveaxis (List.range' (n - 1) (j.ndim - (n - 1)))
      (fAxes.map (n + ·) ++ [n + p.rhsSpec.getD 1 0, o1, n + p.rhsSpec.getD 0 0]))

/-- `_conv_general_dilated_j`, rules.py:434-524, for the filter. -/
def convJ [Field α] (p : ConvParams) (inp : List ℕ) (lhs : Arr α) (out : List ℕ) : Except Err (Arr α) := do
  let n := out.length
  let size := inp.getD (p.rhsSpec.getD 0 0) 0 / (p.featureGroups * p.batchGroups)
  let j ← convBlocks p inp lhs n
  let e := (eye size).expandDims ((List.range j.ndim).filter fun i => ¬ (i = p.outSpec.getD 1 0 ∨ i = n + p.rhsSpec.getD 0 0))
  .ok (kron j e)

/-- `_conv_general_dilated_e`, rules.py:526-539, on the shapes of the operands. -/
def convE (p : ConvParams) (lhs rhs : List ℕ) : ConvParams :=
  let p := if lhs.getD (p.lhsSpec.getD 1 0) 0 < p.featureGroups ∨ rhs.getD (p.rhsSpec.getD 0 0) 0 < p.featureGroups then { p with featureGroups := 1 } else p
  if rhs.getD (p.rhsSpec.getD 0 0) 0 < p.batchGroups ∨ lhs.getD (p.lhsSpec.getD 0 0) 0 < p.batchGroups then { p with batchGroups := 1 } else p

/-- The Jacobian rule as it is called for a trimmed equation (empirical.py:1918-1945, 2091-2108): the parameters are adapted to the trimmed filter; `lhs` is
the shape of the other operand, which is not trimmed. -/
def convRule [Field α] (p : ConvParams) (lhs : List ℕ) (inp : List ℕ) (x : Arr α) (out : List ℕ) : Except Err (Arr α) := convJ (convE p lhs inp) inp x out

end NT.Rules
