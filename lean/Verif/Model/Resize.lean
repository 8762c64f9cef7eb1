import Verif.Model.Dot
import Verif.Model.Kernel
import Verif.Model.Utils
import Mathlib.Data.Real.Basic
import Mathlib.Algebra.Order.Group.Unbundled.Abs

/-!
# `ImageResize`: `neural_tangents/_src/stax/linear.py:2645-2838`
-/

namespace NT
open Arr

/-- `jax.image.ResizeMethod` (not in /repo).  `other` stands for the cubic and Lanczos methods, `w` are their weights. -/
inductive ResizeMethod
  | nearest
  | linear
  | other (w : ℕ → ℕ → ℕ → ℕ → ℝ)

/-- `_resize_nearest` of `jax.image` (not in /repo): along an axis resized from `n` to `m`, output `j` is the input at
`floor((j + 1 / 2) * n / m)`.  The weight of input `i`. -/
def nearestWeight (n m i j : ℕ) : ℝ := if i = (2 * j + 1) * n / (2 * m) then 1 else 0

/-- The triangle kernel of `jax.image`. -/
noncomputable def triangle (x : ℝ) : ℝ := max 0 (1 - |x|)

/-- The weight of input `i` for output `j` before normalisation, `compute_weight_mat` of `jax.image` (not in /repo). -/
noncomputable def triangleAt (antialias : Bool) (n m i j : ℕ) : ℝ :=
  triangle (((j + 1 / 2) * ((n : ℝ) / m) - 1 / 2 - i) / (if antialias then max ((n : ℝ) / m) 1 else 1))

/-- `compute_weight_mat` of `jax.image` (not in /repo) with the triangle kernel. -/
noncomputable def linearWeight (antialias : Bool) (n m i j : ℕ) : ℝ :=
  let total := ((List.range n).map fun k => triangleAt antialias n m k j).sum
  if -(1 / 2) ≤ (j + 1 / 2) * ((n : ℝ) / m) - 1 / 2 ∧ (j + 1 / 2) * ((n : ℝ) / m) - 1 / 2 ≤ n - 1 / 2 ∧ 1000 / 2 ^ 23 < |total| then
    triangleAt antialias n m i j / total
  else 0

/-- The weights of a method along one axis. -/
noncomputable def ResizeMethod.weight : ResizeMethod → Bool → ℕ → ℕ → ℕ → ℕ → ℝ
  | .nearest, _ => nearestWeight
  | .linear, a => linearWeight a
  | .other w, _ => w

/-- An axis whose size does not change is left alone by `jax.image.resize`. -/
noncomputable def axisWeight (w : ℕ → ℕ → ℕ → ℕ → ℝ) (n m i j : ℕ) : ℝ :=
  if n = m then (if i = j then 1 else 0) else w n m i j

/-- The weight of the input `i` for the output `j` of an array resized from shape `n` to shape `m`: the axes are resized one after the other. -/
noncomputable def axesWeight (w : ℕ → ℕ → ℕ → ℕ → ℝ) : List ℕ → List ℕ → List ℕ → List ℕ → ℝ
  | n :: N, m :: M, i :: I, j :: J => axisWeight w n m i j * axesWeight w N M I J
  | _, _, _, _ => 1

/-- `jax.image.resize(x, shape, method, antialias)` (not in /repo).  A `ValueError` for a `shape` of another rank. -/
noncomputable def imageResize (w : ℕ → ℕ → ℕ → ℕ → ℝ) (x : Arr ℝ) (shape : List ℕ) : Except Err (Arr ℝ) :=
  if shape.length = x.ndim then
    .ok ⟨shape, fun o => sumOver x.shape fun i => axesWeight w x.shape shape i o * x.get i⟩
  else .error .valueError

/-- The arguments of `ImageResize`, linear.py:2647-2654, without `precision`.  An entry `none` of `shape` stands for `-1` (other negative
entries are not modelled); `isStr` tells whether `method` was given as a string. -/
structure ImageResize where
  shape : List (Option ℕ)
  method : ResizeMethod
  isStr : Bool
  antialias : Bool
  batchAxis : ℤ
  channelAxis : ℤ

namespace ImageResize

/-- `_shape`, linear.py:2727-2728: an `IndexError` if the input has too few axes. -/
def resolve : List (Option ℕ) → List ℕ → Except Err (List ℕ)
  | [], _ => .ok []
  | some s :: l, S => do return s :: (← resolve l S.tail)
  | none :: _, [] => .error .indexError
  | none :: l, n :: S => do return n :: (← resolve l S)

/-- The weights in use. -/
noncomputable def weight (d : ImageResize) : ℕ → ℕ → ℕ → ℕ → ℝ := d.method.weight d.antialias

/-- `apply_fn`, linear.py:2733-2738. -/
noncomputable def apply (d : ImageResize) (x : Arr ℝ) : Except Err (Arr ℝ) := do
  imageResize d.weight x (← resolve d.shape x.shape)

/-- `mask_fn`, linear.py:2740-2774: the mask is inverted, resized as numbers, and what is not zero becomes `True`. -/
noncomputable def maskFn (d : ImageResize) (mask : Arr Bool) : Except Err (Arr Bool) := do
  let r ← imageResize d.weight (mask.map fun b => if b then 0 else 1) (← resolve d.shape mask.shape)
  return r.map fun v => !decide (v ≠ 0)

/-- `batch_axis % len(shape)`, linear.py:2776. -/
def ba (d : ImageResize) : ℕ := (d.batchAxis % (d.shape.length : ℤ)).toNat

/-- `channel_axis % len(shape)`, linear.py:2776. -/
def ca (d : ImageResize) : ℕ := (d.channelAxis % (d.shape.length : ℤ)).toNat

/-- The declared `diagonal_batch`, linear.py:2778: the batch axis is left alone. -/
def reqDiagonalBatch (d : ImageResize) : Bool := (d.shape.getD d.ba none).isNone

/-- The declared `diagonal_spatial.input`, linear.py:2779-2783: all spatial axes are left alone (`Bool.YES`; else `Bool.NO`). -/
def reqDiagonalSpatial (d : ImageResize) : Bool :=
  (List.range d.shape.length).all fun i => (d.shape.getD i none).isNone || [d.ba, d.ca].contains i

/-- `k_shape`, linear.py:2813-2821. -/
def kShape (d : ImageResize) (diagonalSpatial : Bool) (shape1 shape2 : List ℕ) (diagonalBatch : Bool) : List ℕ :=
  (shape1.getD d.ba 0 :: if diagonalBatch then [] else [shape2.getD d.ba 0]) ++
    ((List.range (min shape1.length shape2.length)).filter fun i => !([d.ba, d.ca].contains i)).flatMap fun i =>
      if diagonalSpatial then [shape1.getD i 0] else [shape1.getD i 0, shape2.getD i 0]

/-- `resize`, linear.py:2809-2827, of an array that is not `None`. -/
noncomputable def resize (d : ImageResize) (diagonalSpatial : Bool) (shape1 shape2 : List ℕ) (diagonalBatch : Bool) (a : Arr ℝ) :
    Except Err (Arr ℝ) :=
  if a.ndim = 0 then .ok a else imageResize d.weight a (d.kShape diagonalSpatial shape1 shape2 diagonalBatch)

/-- `resize` of an array that may be `None`, linear.py:2810-2811. -/
noncomputable def resizeOpt (d : ImageResize) (diagonalSpatial : Bool) (shape1 shape2 : List ℕ) (diagonalBatch : Bool) :
    Option (Arr ℝ) → Except Err (Option (Arr ℝ))
  | none => .ok none
  | some a => do return some (← d.resize diagonalSpatial shape1 shape2 diagonalBatch a)

/-- Whether `_method` is one of the supported ones, linear.py:2793-2794. -/
def supported : ResizeMethod → Bool
  | .other _ => false
  | _ => true

/-- `kernel_fn`, linear.py:2785-2836.  `_method` is only assigned if `method` is a string (2789-2790); its first use otherwise raises an
`UnboundLocalError`, a `NameError`. -/
noncomputable def kernelFn (d : ImageResize) (k : Kernel ℝ) : Except Err (Kernel ℝ) :=
  if !d.isStr then .error .nameError
  else if !supported d.method then .error .notImplemented
  else if (d.shape.getD d.ca none).isSome then .error .valueError
  else do
    let shape1 ← resolve d.shape k.shape1
    let shape2 ← resolve d.shape k.shape2
    let cov1 ← d.resize k.diagonalSpatial shape1 shape1 k.diagonalBatch k.cov1
    let nngp ← d.resize k.diagonalSpatial shape1 shape2 false k.nngp
    let cov2 ← d.resizeOpt k.diagonalSpatial shape2 shape2 k.diagonalBatch k.cov2
    let ntk ← d.resizeOpt k.diagonalSpatial shape1 shape2 false k.ntk
    return { k with cov1 := cov1, nngp := nngp, cov2 := cov2, ntk := ntk }

end ImageResize
end NT
