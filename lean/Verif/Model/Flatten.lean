import Verif.Model.Dot
import Verif.Model.Kernel
import Verif.Model.Axes
import Mathlib.Data.Real.Basic

/-!
# The `Flatten` layer: `neural_tangents/_src/stax/linear.py:1813-1906`
-/

namespace NT
open Arr

/-- `jnp.trace(x, axis1=-2, axis2=-1) / x.shape[-1]`, linear.py:1881. -/
noncomputable def traceLast (x : Arr ℝ) : Arr ℝ :=
  let m := x.shape.dropLast.getLastD 0
  let n := x.shape.getLastD 0
  ⟨x.shape.dropLast.dropLast, fun i =>
    ((List.range (min m n)).map fun t => x.get (i ++ [t, t])).sum / n⟩

/-- `while x.ndim > batch_ndim: x = trace(x)`, linear.py:1880-1881; the loop removes two axes per step, so
`x.ndim` steps of fuel suffice.  Not modelled: an odd number of spatial axes (NumPy raises). -/
noncomputable def traceLoop : Nat → Nat → Arr ℝ → Arr ℝ
  | 0, _, x => x
  | fuel + 1, bn, x => if x.ndim > bn then traceLoop fuel bn (traceLast x) else x

/-- `jnp.mean(x, tuple(range(x.ndim)[batch_ndim:]))`, linear.py:1875-1877. -/
noncomputable def meanTail (bn : Nat) (x : Arr ℝ) : Arr ℝ :=
  ⟨x.shape.take bn, fun i => sumOver (x.shape.drop bn) (fun p => x.get (i ++ p)) / (x.shape.drop bn).prod⟩

/-- The arguments of `Flatten`. -/
structure Flatten where
  batchAxis : Int
  batchAxisOut : Int

namespace Flatten

/-- `(batch_axis_out, channel_axis_out)`, linear.py:1833-1842. -/
def axesOut (f : Flatten) : Except Err (Nat × Nat) :=
  if f.batchAxisOut = 0 ∨ f.batchAxisOut = -2 then .ok (0, 1)
  else if f.batchAxisOut = 1 ∨ f.batchAxisOut = -1 then .ok (1, 0)
  else .error .valueError

/-- `batch_axis` counted from the front for inputs of rank `n`. -/
def axis (f : Flatten) (n : Nat) : Nat := (f.batchAxis % (n : Int)).toNat

/-- `get_output_shape`, linear.py:1844-1854, for a batch axis in range. -/
def outputShape (f : Flatten) (bo : Nat) (s : List Nat) : List Nat :=
  let a := f.axis s.length
  let batch := s.getD a 0
  let channels := (s.take a ++ s.drop (a + 1)).prod
  if bo = 0 then [batch, channels] else [channels, batch]

/-- `apply_fn`, linear.py:1860-1863: the batch axis is moved to `-batch_axis_out`, i.e. to the front for 0
and to the end for 1. -/
def apply {α : Type} (f : Flatten) (x : Arr α) : Except Err (Arr α) :=
  match f.axesOut with
  | .error e => .error e
  | .ok (bo, _) =>
    (x.moveaxis [f.axis x.ndim] [if bo = 0 then 0 else x.ndim - 1]).reshapeE (f.outputShape bo x.shape)

/-- `trace`, linear.py:1871-1883. -/
noncomputable def trace (diagonalSpatial : Bool) (bn : Nat) (x : Arr ℝ) : Arr ℝ :=
  if diagonalSpatial then meanTail bn x else traceLoop x.ndim bn x

/-- `kernel_fn`, linear.py:1865-1900. -/
noncomputable def kernelFn (f : Flatten) (k : Kernel ℝ) : Except Err (Kernel ℝ) :=
  match f.axesOut with
  | .error e => .error e
  | .ok (bo, co) =>
    let bn := if k.diagonalBatch then 1 else 2
    .ok { k with cov1 := trace k.diagonalSpatial bn k.cov1,
                 nngp := trace k.diagonalSpatial 2 k.nngp,
                 cov2 := k.cov2.map (trace k.diagonalSpatial bn),
                 ntk := k.ntk.map (trace k.diagonalSpatial 2),
                 isGaussian := false, isReversed := false, batchAxis := bo, channelAxis := co,
                 diagonalSpatial := false }

/-- `mask_fn`, linear.py:1902-1905, for a mask of the shape of the inputs.  Note that the batch axis is moved
to `batch_axis_out`, not to `-batch_axis_out` as in `apply_fn`. -/
def maskFn (f : Flatten) (m : Arr Bool) : Except Err (Arr Bool) :=
  match f.axesOut with
  | .error e => .error e
  | .ok (bo, _) => (m.moveaxis [f.axis m.ndim] [bo]).reshapeE (f.outputShape bo m.shape)

end Flatten
end NT
