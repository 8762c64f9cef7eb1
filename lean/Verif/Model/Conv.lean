import Verif.Model.Window
import Verif.Model.Dense
import Verif.Model.Dropout
import Verif.Spec.Act

/-!
# Convolutional layers: `neural_tangents/_src/stax/linear.py:1116-1454`, `3115-3267`, `3341-3437`

`Conv` and `ConvLocal`.  `ConvTranspose` (`transpose=True`) is in `Verif.Model.ConvTranspose`.
-/

namespace NT
open Arr

/-- `_conv_kernel_diagonal_spatial`, linear.py:3381-3437; `ws` lists filter size and stride of each spatial axis. -/
noncomputable def convDiagonal (lhs : Arr ℝ) (ws : List (Nat × Nat)) (pad : Padding) (bn : Nat) : Arr ℝ :=
  if lhs.ndim = 0 then lhs
  else
    let v := List.replicate bn (1, 1) ++ ws
    let lhs := if pad = .circular then samePadWrap lhs v else lhs
    let pad := if pad = .circular then .valid else pad
    (reduceWindow lhs v pad).map fun x => x / ((ws.map Prod.fst).prod : ℕ)

/-- Entry `g = [k, l]` of `jnp.diag(jnp.full((f,), 1. / f))`, linear.py:3353. -/
noncomputable def diagFilter (f : Nat) (g : List Nat) : ℝ := if g.getD 0 0 = g.getD 1 0 then 1 / (f : ℝ) else 0

/-- The depthwise convolution of the last two axes, linear.py:3369-3376: all other axes are flattened to examples
and channels, each channel is convolved with the same `f x f` filter, and the axes are restored. -/
noncomputable def convLast (x : Arr ℝ) (v : Nat × Nat) (pad : Padding) : Arr ℝ :=
  let n := x.ndim - 2
  let S := x.shape.drop n
  ⟨x.shape.take n ++ windowShape pad S [v, v], fun j =>
    sumOver [v.1, v.1] fun g => diagFilter v.1 g *
      readTap (fun p => x.get (j.take n ++ p)) (tapIdx pad S [v, v] (j.drop n) g)⟩

/-- `_conv_kernel_full_spatial_loop`, linear.py:3341-3378: from the last pair of axes to the first, the pair is
moved to the end and convolved. -/
noncomputable def convLoop (lhs : Arr ℝ) (ws : List (Nat × Nat)) (pad : Padding) : Arr ℝ :=
  let bn := lhs.ndim - ws.length * 2
  ws.zipIdx.foldr (fun vj x =>
    convLast (x.moveaxis [bn + 2 * vj.2, bn + 2 * vj.2 + 1] [x.ndim - 2, x.ndim - 1]) vj.1 pad) lhs

/-- `_conv_kernel_full_spatial_shared`, linear.py:3115-3207. -/
noncomputable def convShared (lhs : Arr ℝ) (ws : List (Nat × Nat)) (pad : Padding) (bn : Nat) : Arr ℝ :=
  if lhs.ndim = 0 then lhs
  else
    let lhs := if pad = .circular then
      samePadWrap lhs (List.replicate bn (1, 1) ++ ws.flatMap fun v => [v, v]) else lhs
    convLoop lhs ws (if pad = .circular then .valid else pad)

/-- `_conv_kernel_full_spatial_unshared`, linear.py:3210-3267.  Simplified: `vmap(jnp.diag)` on the flattened
arrays is written on the unflattened ones, `out[b, p, q] = out_diag[b, p]` if `p = q`, otherwise 0. -/
noncomputable def convUnshared (lhs : Arr ℝ) (ws : List (Nat × Nat)) (pad : Padding) (bn : Nat) : Except Err (Arr ℝ) :=
  if lhs.ndim = 0 then .ok lhs
  else do
    let lhs ← unzipAxes lhs bn none
    let lhsDiag ← diagonalBetween lhs bn none
    let outDiag := convDiagonal lhsDiag ws pad bn
    let B := outDiag.shape.take bn
    let S := outDiag.shape.drop bn
    let out : Arr ℝ := ⟨B ++ S ++ S, fun i =>
      let b := i.take bn
      let p := (i.drop bn).take S.length
      if p = i.drop (bn + S.length) then outDiag.get (b ++ p) else 0⟩
    zipAxes out bn none

/-- The arguments of `_Conv`, linear.py:1116-1130.  Simplified: `dimension_numbers` are such that the input and
the output have the same specification and the filter has its spatial axes in the same order, followed by the
input and the output channels (as in the default, for any position of the batch and the channel axis);
`filter` lists size and stride of each axis. -/
structure Conv where
  outChan : Nat
  filter : List (Nat × Nat)
  padding : Padding
  wStd : ℝ
  bStd : Option ℝ
  param : Param
  s : Nat × Nat
  sharedWeights : Bool
  batchAxis : Nat
  channelAxis : Nat

namespace Conv

/-- The number of output channels, linear.py:1184-1187 (`out_chan_arg`); only the shared variant uses it. -/
def width (d : Conv) : Nat := if d.param = .standard ∧ d.sharedWeights then d.outChan * d.s.2 else d.outChan

/-- `np.prod(filter_shape)`. -/
def filterSize (d : Conv) : Nat := (d.filter.map Prod.fst).prod

/-- `get_fan_in` for `C` input channels, linear.py:1264-1265. -/
def fanIn (d : Conv) (C : Nat) : Nat := C * d.filterSize

/-- The factors of the drawn standard normal `W`, `b`, linear.py:1267-1277. -/
noncomputable def scaleW (d : Conv) (C : Nat) : ℝ :=
  if d.param = .standard then d.wStd / Real.sqrt (d.fanIn C / d.s.1) else 1

@[inherit_doc scaleW]
noncomputable def scaleB (d : Conv) : ℝ := if d.param = .standard then d.bStd.getD 0 else 1

/-- `lax.conv_general_dilated(x, W, strides, padding)` for `W` of shape `filter ++ [C, D]`
(JAX primitive, not in /repo). -/
noncomputable def laxConv (x W : Arr ℝ) (ws : List (Nat × Nat)) (pad : Padding) (ba ca : Nat) : Arr ℝ :=
  let rest := (List.range x.ndim).filter fun i => !([ba, ca].contains i)
  let S := gather rest x.shape
  let C := x.shape.getD ca 0
  let D := W.shape.getD (ws.length + 1) 0
  ⟨actIdx ba ca (x.shape.getD ba 0) D (windowShape pad S ws), fun j =>
    sumOver (ws.map Prod.fst ++ [C]) fun g =>
      W.get (g ++ [j.getD ca 0]) *
        readTap (fun p => x.get (actIdx ba ca (j.getD ba 0) (g.getD ws.length 0) p))
          (tapIdx pad S ws (gather rest j) (g.take ws.length))⟩

/-- `lax.conv_general_dilated_local` for `W` of shape `output spatial shape ++ [C * filter size, D]`: the
filters depend on the output position; patches are flattened with the channel first, the order documented
by `lax.conv_general_dilated_patches` (JAX primitive, not in /repo). -/
noncomputable def laxConvLocal (x W : Arr ℝ) (ws : List (Nat × Nat)) (pad : Padding) (ba ca : Nat) : Arr ℝ :=
  let rest := (List.range x.ndim).filter fun i => !([ba, ca].contains i)
  let S := gather rest x.shape
  let C := x.shape.getD ca 0
  let D := W.shape.getD (ws.length + 1) 0
  ⟨actIdx ba ca (x.shape.getD ba 0) D (windowShape pad S ws), fun j =>
    sumOver (C :: ws.map Prod.fst) fun g =>
      W.get (gather rest j ++ [ravel (C :: ws.map Prod.fst) g, j.getD ca 0]) *
        readTap (fun p => x.get (actIdx ba ca (j.getD ba 0) (g.getD 0 0) p))
          (tapIdx pad S ws (gather rest j) (g.drop 1))⟩

/-- `apply_fn`, linear.py:1286-1319. -/
noncomputable def apply (d : Conv) (W : Arr ℝ) (b : Option (Arr ℝ)) (x : Arr ℝ) : Except Err (Arr ℝ) :=
  let C := x.shape.getD d.channelAxis 0
  let run := fun (norm bRescale : ℝ) =>
    let x := if d.padding = .circular then
      samePadWrap x (actIdx d.batchAxis d.channelAxis (1, 1) (1, 1) d.filter) else x
    let pad := if d.padding = .circular then .valid else d.padding
    let y := if d.sharedWeights then laxConv x W d.filter pad d.batchAxis d.channelAxis
      else laxConvLocal x W d.filter pad d.batchAxis d.channelAxis
    let res := y.map fun v => norm * v
    match b with
    | none => res
    | some b => bcast (fun v u => v + bRescale * u) res b
  match d.param with
  | .ntk => .ok (run (d.wStd / Real.sqrt (d.fanIn C)) (d.bStd.getD 0))
  | .standard => .ok (run (1 / Real.sqrt d.s.1) 1)
  | .other => .error .notImplemented

/-- `affine`, linear.py:1368-1384; a `scale` of `W_std ** 2` and a `shift` of `b_std ** 2`. -/
noncomputable def affine (d : Conv) (k : Kernel ℝ) (out : Arr ℝ) (scale : ℝ) (shift : Option ℝ) (bn : Nat) : Arr ℝ :=
  let out := out.map fun v => v * scale
  match shift with
  | none => out
  | some t =>
    if k.diagonalSpatial ∨ d.sharedWeights then out.map fun v => v + t
    else
      -- `out.at[idx].add(shift)`: both indices of each pair of axes run over the same `arange`
      ⟨out.shape, fun i => if pairsEqual (i.drop bn) then out.get i + t else out.get i⟩

/-- `conv_unscaled`, linear.py:1336-1366. -/
noncomputable def convUnscaled (d : Conv) (k : Kernel ℝ) (lhs : Arr ℝ) (bn : Nat) : Except Err (Arr ℝ) :=
  if k.diagonalSpatial then .ok (convDiagonal lhs d.filter d.padding bn)
  else if d.sharedWeights then
    .ok (convShared lhs (if k.isReversed then d.filter.reverse else d.filter) d.padding bn)
  else convUnshared lhs d.filter d.padding bn

/-- `conv`, linear.py:1388-1391. -/
noncomputable def conv (d : Conv) (k : Kernel ℝ) (lhs : Arr ℝ) (bn : Nat) : Except Err (Arr ℝ) := do
  let out ← d.convUnscaled k lhs bn
  return d.affine k out (d.wStd ^ 2) (d.bStd.map (· ^ 2)) bn

/-- `conv` of an optional array. -/
noncomputable def convO (d : Conv) (k : Kernel ℝ) (bn : Nat) : Option (Arr ℝ) → Except Err (Option (Arr ℝ))
  | none => .ok none
  | some a => (d.conv k a bn).map some

/-- The `ntk` of the `ntk` parameterization, linear.py:1397-1399. -/
noncomputable def ntkNtk (d : Conv) (k : Kernel ℝ) (nngp : Arr ℝ) : Except Err (Option (Arr ℝ)) :=
  match k.ntk with
  | none => .ok none
  | some n => do
    let c ← d.convUnscaled k n 2
    let r ← zipB (· + ·) (c.map fun v => d.wStd ^ 2 * v) nngp
    return some r

/-- The `ntk` of the standard parameterization, linear.py:1401-1407. -/
noncomputable def ntkStandard (d : Conv) (k : Kernel ℝ) (C : Nat) (nngpUnscaled : Arr ℝ) : Except Err (Option (Arr ℝ)) :=
  match k.ntk with
  | none => .ok none
  | some n => do
    let c ← d.convUnscaled k n 2
    let r ← zipB (· + ·) (nngpUnscaled.map fun v => (d.fanIn C : ℝ) / d.s.1 * v) (c.map fun v => d.wStd ^ 2 * v)
    return some (if d.bStd.isSome then d.affine k r 1 (some 1) 2 else r)

/-- The result record, linear.py:1410-1418; the final transposition is the identity for the modelled
`dimension_numbers`. -/
def finish (d : Conv) (k : Kernel ℝ) (cov1 nngp : Arr ℝ) (cov2 ntk : Option (Arr ℝ)) : Kernel ℝ :=
  { k with cov1 := cov1, nngp := nngp, cov2 := cov2, ntk := ntk, isGaussian := true,
           isReversed := if !k.diagonalSpatial && d.sharedWeights then !k.isReversed else k.isReversed,
           batchAxis := d.batchAxis, channelAxis := d.channelAxis, isInput := false }

/-- `kernel_fn`, linear.py:1321-1424. -/
noncomputable def kernelFn (d : Conv) (k : Kernel ℝ) : Except Err (Kernel ℝ) :=
  let bn := if k.diagonalBatch then 1 else 2
  match d.param with
  | .ntk => do
    let cov1 ← d.conv k k.cov1 bn
    let cov2 ← d.convO k bn k.cov2
    let nngp ← d.conv k k.nngp 2
    let ntk ← d.ntkNtk k nngp
    return d.finish k cov1 nngp cov2 ntk
  | .standard => do
    let cov1 ← d.conv k k.cov1 bn
    let cov2 ← d.convO k bn k.cov2
    let u ← d.convUnscaled k k.nngp 2
    let ntk ← d.ntkStandard k (k.shape1.getD d.channelAxis 0) u
    return d.finish k cov1 (d.affine k u (d.wStd ^ 2) (d.bStd.map (· ^ 2)) 2) cov2 ntk
  | .other => .error .valueError

end Conv
end NT
