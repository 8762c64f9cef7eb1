import Verif.Model.Arr

/-!
# The `Kernel` dataclass, `neural_tangents/_src/utils/kernel.py`
-/

namespace NT

/-- `Kernel`, kernel.py:124-145.  Simplifications: axes are taken non-negative
(layers canonicalise them before building a `Kernel`), `shape1`, `shape2` are
always present with known sizes. -/
structure Kernel (α : Type) where
  nngp : Arr α
  ntk : Option (Arr α)
  cov1 : Arr α
  cov2 : Option (Arr α)
  x1IsX2 : Arr Bool
  isGaussian : Bool
  isReversed : Bool
  isInput : Bool
  diagonalBatch : Bool
  diagonalSpatial : Bool
  shape1 : List Nat
  shape2 : List Nat
  batchAxis : Nat
  channelAxis : Nat
  mask1 : Option (Arr Bool)
  mask2 : Option (Arr Bool)

namespace Kernel
variable {α : Type}

/-- The fields that are not pytree leaves (`pytree_node=False`), kernel.py:131-142. -/
structure Static where
  isGaussian : Bool
  isReversed : Bool
  isInput : Bool
  diagonalBatch : Bool
  diagonalSpatial : Bool
  shape1 : List Nat
  shape2 : List Nat
  batchAxis : Nat
  channelAxis : Nat
  deriving DecidableEq

/-- The static part of a kernel. -/
def static (k : Kernel α) : Static :=
  ⟨k.isGaussian, k.isReversed, k.isInput, k.diagonalBatch, k.diagonalSpatial, k.shape1, k.shape2,
   k.batchAxis, k.channelAxis⟩

/-- `a[lo:lo+len, lo2:lo2+len2]`. -/
def slice2 (a : Arr α) (lo len lo2 len2 : Nat) : Arr α :=
  ⟨len :: len2 :: a.shape.tail.tail, fun
    | i :: j :: t => a.get ((lo + i) :: (lo2 + j) :: t)
    | i => a.get i⟩

/-- `Kernel.slice`, kernel.py:151-167, for contiguous slices inside the range. -/
def slice (k : Kernel α) (lo1 len1 lo2 len2 : Nat) : Kernel α :=
  let cov1 := k.cov1.sliceLead lo1 len1
  let cov2 := match k.cov2 with
    | none => k.cov1.sliceLead lo2 len2
    | some c => c.sliceLead lo2 len2
  { k with
    cov1 := cov1
    nngp := slice2 k.nngp lo1 len1 lo2 len2
    cov2 := some cov2
    ntk := k.ntk.map fun n => if n.ndim = 0 then n else slice2 n lo1 len1 lo2 len2
    shape1 := cov1.shape.headD 0 :: k.shape1.tail
    shape2 := cov2.shape.headD 0 :: k.shape2.tail
    mask1 := k.mask1.map fun m => m.sliceLead lo1 len1
    mask2 := k.mask2.map fun m => m.sliceLead lo2 len2 }

end Kernel
end NT
