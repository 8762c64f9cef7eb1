import Verif.Model.Arr

/-!
# Axis utilities of `neural_tangents/_src/utils/utils.py`
-/

namespace NT
open Arr

variable {α β γ : Type*}

/-- Python `range(lo, hi, step)` for non-negative arguments, `step > 0`. -/
def pyRange (lo hi step : Nat) : List Nat := List.range' lo ((hi - lo + step - 1) / step) step

/-- `_zip_axes`, utils.py:364-402.  Both bounds are taken non-negative with
`start_axis <= end_axis <= x.ndim` (every call site in `/repo` passes such
bounds); the `ValueError` of line 391-393 is kept. -/
def zipAxesCore (x : Arr α) (start : Nat) (stop : Option Nat) (unzip : Bool) :
    Except Err (Arr α) :=
  let e := stop.getD x.ndim
  let half := (e - start) / 2
  if (e - start) % 2 ≠ 0 then .error .valueError
  else
    let oddAxes := pyRange (start + 1) e 2
    let lastAxes := pyRange (e - half) e 1
    if unzip then .ok (x.moveaxis oddAxes lastAxes)
    else .ok (x.moveaxis lastAxes oddAxes)

/-- `zip_axes`, utils.py:324-342. -/
def zipAxes (x : Arr α) (start : Nat := 0) (stop : Option Nat := none) : Except Err (Arr α) :=
  zipAxesCore x start stop false

/-- `unzip_axes`, utils.py:345-361. -/
def unzipAxes (x : Arr α) (start : Nat := 0) (stop : Option Nat := none) : Except Err (Arr α) :=
  zipAxesCore x start stop true

/-- `source_axes` of `reverse_zipped`, utils.py:471-473: pairs `(i, i+1)` for
`i` in `range(ndim - 2, start - 1, -2)`. -/
def reverseSource (n start : Nat) : List Nat :=
  ((List.range ((n - start) / 2)).map fun k => n - 2 * (k + 1)).flatMap fun i => [i, i + 1]

/-- `reverse_zipped` on an array, utils.py:465-480 (array branch, lines 475-477).
`moveaxis` raises `ValueError` when the two axis lists differ in length, i.e.
for an odd number of axes. -/
def reverseZipped (x : Arr α) (start : Nat := 0) : Except Err (Arr α) :=
  let src := reverseSource x.ndim start
  let dst := pyRange start x.ndim 1
  if src.length ≠ dst.length then .error .valueError
  else .ok (x.moveaxis src dst)

/-- `reverse_zipped` on a list / tuple, utils.py:465-480 (line 479). -/
def reverseZippedList {β : Type*} [Inhabited β] (x : List β) (start : Nat := 0) : List β :=
  x.take start ++ (reverseSource x.length start).map fun i => x.getD i default

/-- `size_at(shape)`, utils.py:492-502 with `axes = None`. -/
def sizeAt (s : List Nat) : Nat := s.foldl (· * ·) 1

/-- `size_at(shape, axes)`, utils.py:492-502. -/
def sizeAtAxes (s : List Nat) (axes : List Nat) : Nat :=
  (axes.map fun a => s.getD a 0).foldl (· * ·) 1

/-- `make_2d`, utils.py:523-553 (for `x` not `None`). -/
def make2d (x : Arr α) (start : Nat := 0) (stop : Option Nat := none) : Except Err (Arr α) := do
  let e := stop.getD x.ndim
  let y ← unzipAxes x start (some e)
  let half := (e - start) / 2
  return y.reshape (y.shape.take start ++
    [sizeAt ((y.shape.drop start).take half),
     sizeAt ((y.shape.drop (start + half)).take (e - (start + half)))] ++
    y.shape.drop e)

/-- `jnp.diagonal(x, axis1, axis1 + 1)`: drops the two axes and appends the
diagonal as last axis. -/
def diagonalAdj (x : Arr α) (axis1 : Nat) : Arr α :=
  let n := min (x.shape.getD axis1 0) (x.shape.getD (axis1 + 1) 0)
  ⟨x.shape.take axis1 ++ x.shape.drop (axis1 + 2) ++ [n],
   fun i =>
     let k := i.getD (i.length - 1) 0
     let r := i.take (i.length - 1)
     x.get (r.take axis1 ++ [k, k] ++ r.drop axis1)⟩

/-- `diagonal_between`, utils.py:405-429. -/
def diagonalBetween (x : Arr α) (start : Nat := 0) (stop : Option Nat := none) :
    Except Err (Arr α) :=
  let e := stop.getD x.ndim
  let half := (e - start) / 2
  if (e - start) % 2 ≠ 0 then .error .valueError
  else if half = 0 then .ok x
  else
    let side := (x.shape.drop start).take half
    let sideSize := sizeAt side
    let shape2d := x.shape.take start ++ [sideSize, sideSize] ++ x.shape.drop e
    let shapeRes := x.shape.take start ++ side ++ x.shape.drop e
    let d := diagonalAdj (x.reshape shape2d) start
    let d := d.moveaxis [d.ndim - 1] [start]
    .ok (d.reshape shapeRes)

/-- `zip_flat`, utils.py:432-433. -/
def zipFlat {β : Type*} (x y : List β) : List β := (x.zip y).flatMap fun p => [p.1, p.2]

/-- `interleave_ones`, utils.py:436-445. -/
def interleaveOnes (x : Arr α) (start stop : Nat) (xFirst : Bool) : Arr α :=
  let xAxes := (x.shape.drop start).take (stop - start)
  let ones := List.replicate (stop - start) 1
  x.reshape (x.shape.take start ++
    (if xFirst then zipFlat xAxes ones else zipFlat ones xAxes) ++ x.shape.drop stop)

/-- NumPy broadcasting of one axis: size of the result. -/
def bcastDim (m n : Nat) : Nat := if m = 1 then n else m

/-- NumPy broadcasting: the index used on an operand of shape `s`. -/
def bcastIdx (s i : List Nat) : List Nat := List.zipWith (fun n k => if n = 1 then 0 else k) s i

/-- A broadcasting elementwise binary operation on arrays of equal rank. -/
def bcast (op : α → β → γ) (x : Arr α) (y : Arr β) : Arr γ :=
  ⟨List.zipWith bcastDim x.shape y.shape,
   fun i => op (x.get (bcastIdx x.shape i)) (y.get (bcastIdx y.shape i))⟩

/-- `outer_prod`, utils.py:448-453; `prod_op` is a broadcasting elementwise operation. -/
def outerProd (x : Arr α) (y : Option (Arr α)) (start stop : Nat) (op : α → α → γ) : Arr γ :=
  bcast op (interleaveOnes x start stop true) (interleaveOnes (y.getD x) start stop false)

/-- `double_tuple`, utils.py:669-670. -/
def doubleTuple {β : Type*} (x : List β) : List β := x.flatMap fun v => [v, v]

end NT
