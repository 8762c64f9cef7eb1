import Mathlib.Algebra.Field.Basic
import Verif.Model.Axes
import Verif.Model.Kernel
import Verif.Model.Utils

/-!
# Operations of the `Kernel` class, `neural_tangents/_src/utils/kernel.py`
-/

namespace NT.Kernel
open NT Arr Utils
variable {α : Type}

/-- An operation on an optional array that may fail. -/
def onOpt (f : Arr α → Except Err (Arr α)) : Option (Arr α) → Except Err (Option (Arr α))
  | none => .ok none
  | some a => (f a).map some

/-- Number of batch axes of `cov1`, `cov2`. -/
def batchNdim (k : Kernel α) : Nat := if k.diagonalBatch then 1 else 2

/-- `reverse`, kernel.py:169-189. -/
def reverse (k : Kernel α) : Except Err (Kernel α) := do
  let cov1 ← reverseZipped k.cov1 k.batchNdim
  let cov2 ← onOpt (reverseZipped · k.batchNdim) k.cov2
  let nngp ← reverseZipped k.nngp 2
  let ntk ← onOpt (reverseZipped · 2) k.ntk
  return { k with cov1 := cov1, nngp := nngp, cov2 := cov2, ntk := ntk, isReversed := !k.isReversed }

/-- `_axes` of `permute`, kernel.py:207-215. -/
def permuteAxes (diagonalSpatial : Bool) (axes : List Nat) (batchNdim : Nat) : List Nat :=
  let ax := axes.map (batchNdim + ·)
  let ax := if diagonalSpatial then ax
    else ax.flatMap fun a => [2 * a - batchNdim, 2 * a - batchNdim + 1]
  List.range batchNdim ++ ax

/-- `jnp.transpose(mat, axes)`: a `ValueError` if `axes` is not a permutation of the axes. -/
def transposeE (a : Arr α) (axes : List Nat) : Except Err (Arr α) :=
  if axes.Perm (List.range a.ndim) then .ok (a.transpose axes) else .error .valueError

/-- `transpose`, kernel.py:191-222. -/
def transpose (k : Kernel α) (axes : Option (List Nat)) : Except Err (Kernel α) := do
  let axes := axes.getD (List.range (k.shape1.length - 2))
  let cov1 ← transposeE k.cov1 (permuteAxes k.diagonalSpatial axes k.batchNdim)
  let cov2 ← onOpt (transposeE · (permuteAxes k.diagonalSpatial axes k.batchNdim)) k.cov2
  let nngp ← transposeE k.nngp (permuteAxes k.diagonalSpatial axes 2)
  let ntk ← onOpt (transposeE · (permuteAxes k.diagonalSpatial axes 2)) k.ntk
  return { k with cov1 := cov1, nngp := nngp, cov2 := cov2, ntk := ntk }

/-- `utils.mask`, utils.py:483-489: `jnp.where(mask_mat, 0, x)` with broadcasting of arrays of equal
rank or of a scalar. -/
def maskArr [Zero α] (x : Arr α) (m : Option (Arr Bool)) : Arr α :=
  match m with
  | none => x
  | some m =>
    if x.ndim = 0 then ⟨m.shape, fun i => if m.get i then 0 else x.get []⟩
    else bcast (fun b v => if b then 0 else v) m x

/-- `jnp.squeeze(x, -1)`. -/
def squeezeLast {β : Type} (a : Arr β) : Arr β :=
  ⟨a.shape.take (a.ndim - 1), fun i => a.get (i ++ [0])⟩

/-- `reshape` of `_get_mask_prods`, kernel.py:260-274. -/
def maskReshape (k : Kernel α) (m : Arr Bool) : Except Err (Arr Bool) :=
  if m.shape[k.channelAxis]? ≠ some 1 then .error .notImplemented
  else
    let m := squeezeLast (m.moveaxis [k.batchAxis, k.channelAxis] [0, m.ndim - 1])
    .ok (if k.isReversed then
        m.moveaxis (List.range' 1 (m.ndim - 1)) (List.range' 1 (m.ndim - 1)).reverse
      else m)

/-- `get_mask_prod` of `_get_mask_prods`, kernel.py:255-281.  If the first mask is absent and the
second is not, `m1.ndim` (or `outer_prod`) is an `AttributeError`. -/
def maskProd (k : Kernel α) (m1 m2 : Option (Arr Bool)) (batchNdim : Nat) :
    Except Err (Option (Arr Bool)) :=
  match m1, m2 with
  | none, none => .ok none
  | none, some m2 => do
    let _ ← maskReshape k m2
    .error .attributeError
  | some m1, none => do
    let m1 ← maskReshape k m1
    return some (outerProd m1 none (2 - batchNdim) (if k.diagonalSpatial then 1 else m1.ndim) or)
  | some m1, some m2 => do
    let m1 ← maskReshape k m1
    let m2 ← maskReshape k m2
    return some (outerProd m1 (some m2) (2 - batchNdim)
      (if k.diagonalSpatial then 1 else m1.ndim) or)

/-- `mask`, kernel.py:224-244, with `_get_mask_prods`, kernel.py:246-285. -/
def mask [Zero α] (k : Kernel α) (m1 m2 : Option (Arr Bool)) : Except Err (Kernel α) := do
  let mask11 ← maskProd k m1 m1 k.batchNdim
  let mask22 ← match m2 with
    | some _ => maskProd k m2 m2 k.batchNdim
    | none => .ok mask11
  let mask12 ← maskProd k m1 m2 2
  return { k with
    cov1 := maskArr k.cov1 mask11
    cov2 := k.cov2.map (maskArr · mask22)
    nngp := maskArr k.nngp mask12
    ntk := k.ntk.map (maskArr · mask12)
    mask1 := m1
    mask2 := m2 }

/-- `__mul__`, `__rmul__`, kernel.py:426-433. -/
def mul [Semiring α] (k : Kernel α) (c : α) : Kernel α :=
  { k with
    cov1 := k.cov1.map (c ^ 2 * ·)
    nngp := k.nngp.map (c ^ 2 * ·)
    cov2 := k.cov2.map fun a => a.map (c ^ 2 * ·)
    ntk := k.ntk.map fun a => a.map (c ^ 2 * ·) }

/-- `__add__`, `__sub__`, kernel.py:435-441. -/
def add [Semiring α] (k : Kernel α) (c : α) : Kernel α :=
  { k with
    cov1 := k.cov1.map (c ^ 2 + ·)
    nngp := k.nngp.map (c ^ 2 + ·)
    cov2 := k.cov2.map fun a => a.map (c ^ 2 + ·) }

/-- `__sub__ = __add__`, kernel.py:441. -/
def sub [Semiring α] (k : Kernel α) (c : α) : Kernel α := k.add c

/-- `__truediv__`, kernel.py:443-444. -/
def div [Field α] (k : Kernel α) (c : α) : Kernel α := k.mul (1 / c)

/-- `__neg__`, `__pos__`, kernel.py:446-449. -/
def neg (k : Kernel α) : Kernel α := k

/-! ### Indexing -/

/-- The position along an axis of size `n` that the `k`-th element of a slice stands for. -/
def sliceAt (n : Nat) (start stop step : Option Int) (k : Nat) : Nat :=
  match sliceIndices n start stop step with
  | .ok (a, _, c) => (a + k * c).toNat
  | .error _ => 0

/-- The input index `a[idx]` reads for an output index. -/
def sourceIdx : List Nat → List Entry → List Nat → List Nat
  | n :: s, .int i :: es, o =>
    (match arangeAt n i with
      | .ok d => d
      | .error _ => 0) :: sourceIdx s es o
  | n :: s, .slice a b c :: es, k :: o => sliceAt n a b c k :: sourceIdx s es o
  | _, _, _ => []

/-- `a[idx]` for an index with one entry per axis (NumPy basic indexing). -/
def npIndex {β : Type} (a : Arr β) (idx : List Entry) : Except Err (Arr β) := do
  let s ← npIndexShape a.shape idx
  return ⟨s, fun o => a.get (sourceIdx a.shape idx o)⟩

/-- `isinstance(s, int)` -/
def isIntEntry : Entry → Bool
  | .int _ => true
  | _ => false

/-- The loop of kernel.py:497-502: an axis number after the integer-indexed axes are removed. -/
def shiftAxis (idx : List Entry) (axis : Nat) : Nat :=
  idx.zipIdx.reverse.foldl (fun ax p => if isIntEntry p.1 ∧ p.2 < ax then ax - 1 else ax) axis

/-- The entries of `idx` at the spatial axes, kernel.py:473-474. -/
def spatialIdx (k : Kernel α) (idx : List Entry) : List Entry :=
  (idx.zipIdx.filter fun p => decide (p.2 ≠ k.batchAxis ∧ p.2 ≠ k.channelAxis)).map (·.1)

/-- Indexing of `ntk`, kernel.py:488-490: a scalar or missing one is kept. -/
def indexNtk (ntk : Option (Arr α)) (idx : List Entry) : Except Err (Option (Arr α)) :=
  match ntk with
  | none => .ok none
  | some a => if a.ndim = 0 then .ok (some a) else (npIndex a idx).map some

/-- `__getitem__`, kernel.py:451-517.  `slice_shape` is used for known sizes. -/
def getItem (k : Kernel α) (i : Idx) : Except Err (Kernel α) := do
  let idx := canonicalizeIdx i k.shape1.length
  match idx[k.channelAxis]?, idx[k.batchAxis]? with
  | some channelIdx, some batchIdx => do
    if channelIdx ≠ full then .error .notImplemented
    else if isIntEntry batchIdx then .error .notImplemented
    else
      let sp := k.spatialIdx idx
      let sp := if k.isReversed then sp.reverse else sp
      let sp := if k.diagonalSpatial then sp else doubleTuple sp
      let nngpSlice := [batchIdx, batchIdx] ++ sp
      let covSlice := (if k.diagonalBatch then [batchIdx] else [batchIdx, batchIdx]) ++ sp
      let nngp ← npIndex k.nngp nngpSlice
      let ntk ← indexNtk k.ntk nngpSlice
      let cov1 ← npIndex k.cov1 covSlice
      let cov2 ← onOpt (npIndex · covSlice) k.cov2
      let shape1 ← sliceShape (k.shape1.map Int.ofNat) (.tuple idx)
      let shape2 ← sliceShape (k.shape2.map Int.ofNat) (.tuple idx)
      let mask1 ← onOpt (npIndex · idx) k.mask1
      let mask2 ← onOpt (npIndex · idx) k.mask2
      return { k with
        nngp := nngp, ntk := ntk, cov1 := cov1, cov2 := cov2
        channelAxis := shiftAxis idx k.channelAxis
        batchAxis := shiftAxis idx k.batchAxis
        shape1 := shape1.map Int.toNat, shape2 := shape2.map Int.toNat
        mask1 := mask1, mask2 := mask2 }
  | _, _ => .error .indexError

end NT.Kernel
