import Verif.Model.Branching

/-!
# `FanInConcat`: `neural_tangents/_src/stax/branching.py:189-297, 414-482`
-/

namespace NT
namespace Kernel
open Arr
variable {α : Type}

/-- The weights of `_concat_kernels`, branching.py:456-457: ones if all widths are equal. -/
def concatWeights (widths : List Nat) : List Nat :=
  if ∀ w ∈ widths, w = widths.headD 0 then widths.map fun _ => 1 else widths

/-- `sum(mats[i] * widths[i] for i in range(n_mats)) / sum(widths)`, branching.py:458. -/
def weightedMean [Zero α] [Add α] [Mul α] [Div α] [NatCast α] (mats : List (Arr α)) (widths : List Nat) :
    Except Err (Arr α) :=
  (foldB (· + ·) (scalar 0) (List.zipWith (fun m w => m.map (· * (w : α))) mats widths)).map fun s =>
    s.map (· / ((widths.sum : Nat) : α))

/-- The sum of the sizes along `axis` of the arrays. -/
def sizeSum (axis : Nat) (mats : List (Arr α)) : Nat := (mats.map fun m => m.shape.getD axis 0).sum

/-- The rows of the block matrix, branching.py:470-477: each array padded with zeros along `padAxis` by the
sizes of the arrays before and after it (`before` is the total size of the arrays already done). -/
def padRows [Zero α] (padAxis : Nat) : Nat → List (Arr α) → List (Arr α)
  | _, [] => []
  | before, m :: ms =>
    m.pad padAxis before (sizeSum padAxis ms) :: padRows padAxis (before + m.shape.getD padAxis 0) ms

/-- The 2D concatenation with zero blocks, branching.py:468-478. An axis beyond the rank of an array is an
`IndexError`; arrays of different ranks are a `ValueError` (of `jnp.pad`). -/
def blockConcat [Zero α] (mats : List (Arr α)) (padAxis : Nat) : Except Err (Arr α) :=
  if ¬ ∀ m ∈ mats, padAxis < m.ndim then .error .indexError
  else if ¬ ∀ m ∈ mats, m.ndim = (mats.headD ⟨[], fun _ => 0⟩).ndim then .error .valueError
  else concatE (padRows padAxis 0 mats) (padAxis + 1)

/-- `_concat_kernels`, branching.py:414-482. `axis` is `none` for -1 (averaging). If the first array is
present and another is not, the code raises a `TypeError` or an `AttributeError`; here a `TypeError`. -/
def concatKernels [Zero α] [Add α] [Mul α] [Div α] [NatCast α] (mats : List (Option (Arr α)))
    (axis : Option Nat) (diagBatch diagSpatial : Bool) (widths : List Nat) :
    Except Err (Option (Arr α)) :=
  match mats with
  | [] => .error .indexError
  | none :: _ => .ok none
  | some m :: ms =>
    match allSome (some m :: ms) with
    | none => .error .typeError
    | some l =>
      match axis with
      | none => (weightedMean l (concatWeights widths)).map some
      | some ax =>
        if (ax = 0 ∧ diagBatch) ∨ (ax ≠ 0 ∧ diagSpatial) then
          (concatE l (ax + if diagBatch then 0 else 1)).map some
        else (blockConcat l (2 * ax - if diagBatch then 1 else 0)).map some

/-- `spatial_axes`, branching.py:249-250. -/
def concatSpatialAxes (ndim batchAxis channelAxis : Nat) : List Nat :=
  (List.range ndim).filter fun i => i ≠ channelAxis ∧ i ≠ batchAxis

/-- The axis of the covariances for the axis `ax` of the activations, branching.py:249-268: `none` (-1)
for the channel axis, 0 for the batch axis, and for a spatial axis one more than its place among the
spatial axes, counted from the end for a kernel with reversed spatial axes. -/
def concatAxis (ndim batchAxis channelAxis ax : Nat) (rev : Bool) : Option Nat :=
  if ax = channelAxis then none
  else if ax = batchAxis then some 0
  else
    let sp := concatSpatialAxes ndim batchAxis channelAxis
    let ax' := if rev then sp.reverse.getD (sp.idxOf ax) 0 else ax
    some (sp.idxOf ax' + 1)

/-- The shape of the output of the concatenation along `ax` (the code returns `None`, which the decorator
`layer` replaces by the output shape of `init_fn`, requirements.py:857-879). -/
def concatShape (shapes : List (List Nat)) (ax : Nat) : List Nat :=
  (shapes.headD []).set ax ((shapes.map fun s => s.getD ax 0).sum)

/-- `kernel_fn` of `FanInConcat(axis)`, branching.py:205-292 (without the warning). -/
def fanInConcat [Zero α] [Add α] [Mul α] [Div α] [NatCast α] (axis : Int) (ks : List (Kernel α)) :
    Except Err (Kernel α) :=
  match ks with
  | [] => .error .indexError
  | k0 :: rest =>
    match preprocessFanIn k0 rest with
    | .error e => .error e
    | .ok (ks', rev) =>
      if k0.shape1.length = 0 then .error .zeroDivision
      else
        let ax := (axis % (k0.shape1.length : Int)).toNat
        if ¬ ∀ k ∈ ks', k.shape1.eraseIdx ax = k0.shape1.eraseIdx ax ∧
            k.shape2.eraseIdx ax = k0.shape2.eraseIdx ax then .error .valueError
        else if ax ≠ k0.channelAxis ∧ ks'.all (·.isGaussian) = false then .error .notImplemented
        else
          let gauss : Bool := ax ≠ k0.channelAxis
          let cax := concatAxis k0.shape1.length k0.batchAxis k0.channelAxis ax rev
          let widths := ks'.map fun k => k.shape1.getD k0.channelAxis 0
          match concatKernels (ks'.map fun k => some k.cov1) cax k0.diagonalBatch k0.diagonalSpatial widths,
              concatKernels (ks'.map (·.cov2)) cax k0.diagonalBatch k0.diagonalSpatial widths,
              concatKernels (ks'.map fun k => some k.nngp) cax false k0.diagonalSpatial widths,
              concatKernels (ks'.map (·.ntk)) cax false k0.diagonalSpatial widths with
          | .ok (some cov1), .ok cov2, .ok (some nngp), .ok ntk =>
            .ok { fanInResult k0 rev gauss nngp cov1 cov2 ntk with
              shape1 := concatShape (ks'.map (·.shape1)) ax
              shape2 := concatShape (ks'.map (·.shape2)) ax }
          | .error e, _, _, _ => .error e
          | _, .error e, _, _ => .error e
          | _, _, .error e, _ => .error e
          | _, _, _, .error e => .error e
          | .ok none, _, _, _ => .error .typeError
          | _, _, .ok none, _ => .error .typeError

end Kernel
end NT
