import Verif.Model.Kernel
import Mathlib.Data.Real.Basic
import Mathlib.Algebra.Order.Field.Basic

/-!
# The `Dropout` layer: `neural_tangents/_src/stax/linear.py:2588-2640`
-/

namespace NT
open Arr

/-- The list consists of pairs of equal numbers. -/
def pairsEqual : List Nat → Bool
  | a :: b :: t => a == b && pairsEqual t
  | _ => true

/-- `_diag_mul_full_spatial`, linear.py:3575-3597: the entries picked by the advanced index
`(t0, t0, t1, t1, ...)` (after the batch axis if `diagonal_batch`) are multiplied. -/
noncomputable def diagMulFullSpatial (x : Arr ℝ) (factor : ℝ) (diagonalBatch : Bool) : Except Err (Arr ℝ) :=
  if diagonalBatch then
    .ok ⟨x.shape, fun i => if pairsEqual i.tail then x.get i * factor else x.get i⟩
  else
    match x.shape with
    | n :: m :: _ =>
      if n ≠ m then .ok x
      else .ok ⟨x.shape, fun i => if pairsEqual i then x.get i * factor else x.get i⟩
    | _ => .error .indexError

/-- `_diag_mul_diagonal_spatial`, linear.py:3600-3614. -/
noncomputable def diagMulDiagonalSpatial (x : Arr ℝ) (factor : ℝ) (diagonalBatch : Bool) : Except Err (Arr ℝ) :=
  if diagonalBatch then .ok (x.map fun v => v * factor)
  else
    match x.shape with
    | n :: m :: _ =>
      if n ≠ m then .ok x
      else .ok ⟨x.shape, fun i => if i.getD 0 0 = i.getD 1 0 then x.get i * factor else x.get i⟩
    | _ => .error .indexError

/-- `_diag_mul`, linear.py:3617-3629, on a present array. -/
noncomputable def diagMul (x : Arr ℝ) (factor : ℝ) (diagonalBatch diagonalSpatial : Bool) : Except Err (Arr ℝ) :=
  if diagonalSpatial then diagMulDiagonalSpatial x factor diagonalBatch
  else diagMulFullSpatial x factor diagonalBatch

/-- `_diag_mul`, linear.py:3617-3629, on an optional array. -/
noncomputable def diagMul? (x : Option (Arr ℝ)) (factor : ℝ) (diagonalBatch diagonalSpatial : Bool) :
    Except Err (Option (Arr ℝ)) :=
  match x with
  | none => .ok none
  | some a => (diagMul a factor diagonalBatch diagonalSpatial).map some

/-- The `mode` argument. -/
inductive DropMode
  | train
  | test
  | other
  deriving DecidableEq

/-- The arguments of `Dropout`. -/
structure Dropout where
  rate : ℝ
  mode : DropMode

namespace Dropout

/-- The checks of the arguments, linear.py:2605-2608. -/
noncomputable def check (d : Dropout) : Except Err Unit :=
  if d.mode = .other then .error .valueError
  else
    open Classical in
    if d.rate ≤ 0 ∨ d.rate > 1 then .error .valueError else .ok ()

/-- `apply_fn`: `jax.example_libraries.stax.Dropout` (not in /repo) for drawn keep flags, linear.py:2610:
`where(keep, inputs / rate, 0)` in train mode, the inputs otherwise. -/
noncomputable def apply (d : Dropout) (keep : List Nat → Bool) (x : Arr ℝ) : Arr ℝ :=
  match d.mode with
  | .train => ⟨x.shape, fun i => if keep i then x.get i / d.rate else 0⟩
  | _ => x

/-- `kernel_fn_train`, linear.py:2613-2636. -/
noncomputable def kernelFnTrain (d : Dropout) (k : Kernel ℝ) : Except Err (Kernel ℝ) :=
  if k.isInput then .error .valueError
  else
    let factor := 1 / d.rate
    let newFactor := if k.x1IsX2.get [] then factor else 1
    match diagMul k.cov1 factor k.diagonalBatch k.diagonalSpatial with
    | .error e => .error e
    | .ok cov1 =>
      match diagMul? k.cov2 factor k.diagonalBatch k.diagonalSpatial with
      | .error e => .error e
      | .ok cov2 =>
        match diagMul k.nngp newFactor false k.diagonalSpatial with
        | .error e => .error e
        | .ok nngp =>
          match diagMul? k.ntk newFactor false k.diagonalSpatial with
          | .error e => .error e
          | .ok ntk =>
            .ok { k with cov1 := cov1, nngp := nngp, cov2 := cov2, ntk := ntk, isGaussian := false }

/-- `kernel_fn`, linear.py:2605-2640. -/
noncomputable def kernelFn (d : Dropout) (k : Kernel ℝ) : Except Err (Kernel ℝ) :=
  match d.check with
  | .error e => .error e
  | .ok _ => if d.mode = .test then .ok k else d.kernelFnTrain k

end Dropout
end NT
