import Verif.Model.Dot
import Verif.Model.Axes
import Verif.Model.KernelOps
import Mathlib.Algebra.Field.Basic

/-!
# From inputs to a kernel: `neural_tangents/_src/stax/requirements.py`
-/

namespace NT
namespace Inputs
open Arr
variable {α : Type} [Field α]

/-- `_cov_diag_batch_diag_spatial`, requirements.py:518-526. -/
def covDiagBatchDiagSpatial (x : Arr α) (ba ca : Nat) : Arr α :=
  let ret := (x.map fun v => v ^ 2).sumAxis ca
  let nb := ba - (if ba > ca then 1 else 0)
  ret.moveaxis [nb] [0]

/-- `_cov_diag_batch_full_spatial`, requirements.py:529-539. -/
def covDiagBatchFullSpatial (x : Arr α) (ba ca : Nat) : Except Err (Arr α) := do
  let ret ← dotGeneral x x [ca] [ca] [ba] [ba]
  zipAxes ret 1

/-- `_cov_full_batch_full_spatial`, requirements.py:542-553. -/
def covFullBatchFullSpatial (x1 x2 : Arr α) (ba ca : Nat) : Except Err (Arr α) := do
  let ret ← tensordot x1 x2 ca ca
  let nb := ba - (if ba > ca then 1 else 0)
  let ret := ret.moveaxis [nb, x1.ndim - 1 + nb] [0, 1]
  zipAxes ret 2

/-- `_cov_full_batch_diag_spatial`, requirements.py:556-570. -/
def covFullBatchDiagSpatial (x1 x2 : Arr α) (ba ca : Nat) : Except Err (Arr α) := do
  let diagAxes := (List.range x1.ndim).filter fun i => !([ba, ca].contains i)
  let ret ← dotGeneral x1 x2 [ca] [ca] diagAxes diagAxes
  .ok (ret.moveaxis [ret.ndim - 2, ret.ndim - 1] [0, 1])

/-- `x / n`. -/
def divBy (x : Arr α) (n : Nat) : Arr α := x.map fun v => v / (n : α)

/-- `_cov_diag_batch`, requirements.py:573-583. -/
def covDiagBatch (x : Arr α) (ds : Bool) (ba ca : Nat) : Except Err (Arr α) := do
  let ret ← if ds then .ok (covDiagBatchDiagSpatial x ba ca) else covDiagBatchFullSpatial x ba ca
  .ok (divBy ret (x.shape.getD ca 0))

/-- `_cov`, requirements.py:586-638. -/
def cov (x1 : Arr α) (x2 : Option (Arr α)) (ds : Bool) (ba ca : Nat) : Except Err (Arr α) := do
  let x2 := x2.getD x1
  let ret ← if ds then covFullBatchDiagSpatial x1 x2 ba ca else covFullBatchFullSpatial x1 x2 ba ca
  .ok (divBy ret (x1.shape.getD ca 0))

/-- `_get_masked_array` on an array, requirements.py:328-368.  A `nan` mask constant is not modelled. -/
def maskedArray [DecidableEq α] (x : Arr α) (maskConstant : Option α) : Arr α × Option (Arr Bool) :=
  match maskConstant with
  | none => (x, none)
  | some c => (x.map fun v => if v = c then 0 else v, some (x.map fun v => v = c))

/-- `flatten` inside `_inputs_to_kernel`, requirements.py:758-761. -/
def flatten (ba : Nat) (x : Arr α) : Arr α :=
  (x.moveaxis [ba] [0]).reshape [x.shape.getD ba 0, (x.shape.eraseIdx ba).prod]

/-- `get_x_cov_mask`, requirements.py:770-790, for a given array. -/
def getXCovMask [DecidableEq α] (maskConstant : Option α) (db ds : Bool) (ba ca : Nat) (x : Arr α) :
    Except Err (Arr α × Arr α × Option (Arr Bool)) :=
  if x.ndim < 2 then .error .valueError
  else
    let (x, mask) := maskedArray x maskConstant
    match if db then covDiagBatch x ds ba ca else cov x (some x) ds ba ca with
    | .error e => .error e
    | .ok c => .ok (x, c, mask)

/-- The same for an optional array. -/
def getXCovMaskOpt [DecidableEq α] (maskConstant : Option α) (db ds : Bool) (ba ca : Nat) :
    Option (Arr α) → Except Err (Option (Arr α × Arr α × Option (Arr Bool)))
  | none => .ok none
  | some x => (getXCovMask maskConstant db ds ba ca x).map some

/-- The part of `_inputs_to_kernel` after the axes are known, requirements.py:770-830.  `same` is the
result of `utils.x1_is_x2`, a comparison with a floating point tolerance. -/
def build [DecidableEq α] (x1 : Arr α) (x2 : Option (Arr α)) (db ds computeNtk : Bool) (ba ca : Nat)
    (maskConstant : Option α) (same : Bool) : Except Err (Kernel α) :=
  match getXCovMask maskConstant db ds ba ca x1, getXCovMaskOpt maskConstant db ds ba ca x2 with
  | .error e, _ => .error e
  | _, .error e => .error e
  | .ok (x1, cov1, mask1), .ok r2 =>
    match cov x1 (r2.map (·.1)) ds ba ca with
    | .error e => .error e
    | .ok nngp => .ok
      { nngp := nngp
        ntk := if computeNtk then some ⟨[], fun _ => 0⟩ else none
        cov1 := cov1
        cov2 := r2.map (·.2.1)
        x1IsX2 := ⟨[], fun _ => same⟩
        isGaussian := false
        isReversed := false
        isInput := false
        diagonalBatch := db
        diagonalSpatial := ds
        shape1 := x1.shape
        shape2 := (r2.map (·.1.shape)).getD x1.shape
        batchAxis := ba
        channelAxis := ca
        mask1 := mask1
        mask2 := r2.bind (·.2.2) }

/-- `_inputs_to_kernel`, requirements.py:641-830 (without the warning). -/
def inputsToKernel [DecidableEq α] (x1 : Arr α) (x2 : Option (Arr α)) (db ds computeNtk : Bool) (ba : Int)
    (ca : Option Int) (maskConstant : Option α) (same : Bool) : Except Err (Kernel α) :=
  if x1.ndim = 0 then .error .zeroDivision
  else
    let ba := (ba % (x1.ndim : Int)).toNat
    match ca with
    | none => build (flatten ba x1) (x2.map (flatten ba)) db false computeNtk 0 1 maskConstant same
    | some ca => build x1 x2 db ds computeNtk ba (ca % (x1.ndim : Int)).toNat maskConstant same

end Inputs
end NT
