import Verif.Model.Elementwise
import Verif.Model.Utils

/-!
# `mean_and_var` and `LayerNorm`

`neural_tangents/_src/stax/requirements.py:1118-1159`, `neural_tangents/_src/stax/linear.py:2476-2585`.
-/

namespace NT
open Arr

/-- One flag per axis: is it in the set `A`? -/
def flagsOf (A : Finset ℕ) (n : ℕ) : List Bool := (List.range n).map fun a => a ∈ A

/-- The shape after a reduction over the flagged axes with `keepdims=True`. -/
def keepShape (fl : List Bool) (s : List ℕ) : List ℕ := List.zipWith (fun f n => if f then 1 else n) fl s

/-- The indices agree along the axes that are not flagged. -/
def agrees : List Bool → List ℕ → List ℕ → Bool
  | f :: fl, a :: i, b :: j => (f || a == b) && agrees fl i j
  | _, _, _ => true

/-- `jnp.sum(x, axis, keepdims=True)`. -/
def groupSum {α : Type} [Zero α] [Add α] (fl : List Bool) (x : Arr α) : Arr α :=
  ⟨keepShape fl x.shape, fun i => (((indices x.shape).filter (agrees fl i)).map x.get).sum⟩

/-- `size_at(x, axis)`, utils.py:492-502. -/
def flagSize (fl : List Bool) (s : List ℕ) : ℕ := (List.zipWith (fun f n => if f then n else 1) fl s).prod

/-- The divisor of the mean: `size_at(x, axis)`, less the number of masked entries but at least 1, requirements.py:1139-1146. -/
def groupSize (fl : List Bool) (s : List ℕ) (mask : Option (Arr Bool)) : Except Err (Arr ℝ) :=
  match mask with
  | none => .ok ⟨keepShape fl s, fun _ => flagSize fl s⟩
  | some m => do
    let m ← Masks.broadcastTo m s
    let maskSize := groupSum fl (m.map fun b => if b then (1 : ℕ) else 0)
    return ⟨keepShape fl s, fun i => (max (flagSize fl s - maskSize.get i) 1 : ℕ)⟩

/-- The mean returned by `mean_and_var(x, axis, keepdims=True, mask=mask)`, requirements.py:1118-1150: `x` is summed as it is, masked
entries included (they are zeros in a `MaskedArray`).  Only `keepdims=True` is modelled. -/
noncomputable def meanKeep (x : Arr ℝ) (A : Finset ℕ) (mask : Option (Arr Bool)) : Except Err (Arr ℝ) :=
  if ∀ a ∈ A, a < x.ndim then do
    let fl := flagsOf A x.ndim
    let size ← groupSize fl x.shape mask
    return ⟨keepShape fl x.shape, fun i => (groupSum fl x).get i / size.get i⟩
  else .error .valueError

/-- The variance returned by `mean_and_var(x, axis, keepdims=True, mask=mask, get_var=True)` with `ddof=0`, requirements.py:1134-1157. -/
noncomputable def varKeep (x : Arr ℝ) (A : Finset ℕ) (mask : Option (Arr Bool)) : Except Err (Arr ℝ) := do
  let mean ← meanKeep x A mask
  let fl := flagsOf A x.ndim
  let size ← groupSize fl x.shape mask
  let dev := bcast (fun u v : ℝ => (u - v) ^ 2) x mean
  return ⟨keepShape fl x.shape, fun i => (groupSum fl dev).get i / size.get i⟩

/-- `apply_fn` of `LayerNorm`, linear.py:2507-2511. -/
noncomputable def layerNormApply (axis : List Int) (eps : ℝ) (x : Arr ℝ) (mask : Option (Arr Bool)) : Except Err (Arr ℝ) := do
  let A ← Utils.canonicalizeAxis axis x.ndim
  let mean ← meanKeep x A mask
  let var ← varKeep x A mask
  return bcast (fun u v : ℝ => u / Real.sqrt (eps + v)) (bcast (fun u v : ℝ => u - v) x mean) var

/-- A broadcasting operation: shapes of equal rank whose sizes agree or are 1, or a scalar; other shapes raise. -/
def bcastE {α β γ : Type} (op : α → β → γ) (a : Arr α) (b : Arr β) : Except Err (Arr γ) :=
  if List.Forall₂ (fun m n => m = n ∨ m = 1 ∨ n = 1) a.shape b.shape then .ok (bcast op a b)
  else if a.shape = [] then .ok ⟨b.shape, fun i => op (a.get []) (b.get i)⟩
  else if b.shape = [] then .ok ⟨a.shape, fun i => op (a.get i) (b.get [])⟩
  else .error .valueError

/-- `prepare_mask`, linear.py:2549-2561. -/
def prepareMask (channelAxis : ℕ) (rev : Bool) : Option (Arr Bool) → Except Err (Option (Arr Bool))
  | none => .ok none
  | some m =>
    if m.shape.getD channelAxis 0 = 1 then
      let m : Arr Bool := ⟨m.shape.eraseIdx channelAxis, fun i => m.get (i.insertIdx channelAxis 0)⟩
      .ok (some (if rev then m.moveaxis (List.range' 1 (m.ndim - 1)) (List.range' 1 (m.ndim - 1)).reverse else m))
    else .error .notImplemented

/-- The axes of the diagonals that are averaged, linear.py:2520-2547: `axis` without the channel axis, counted among the batch axis and
the spatial axes in the order of the kernel.  The spatial axes are found with the batch axis as given, negative or not. -/
def layerNormAxes (ax : Finset ℕ) (ndim ba ca : ℕ) (batchAxis : Int) (rev : Bool) : Finset ℕ :=
  let spatial := (List.range ndim).filter fun i => !(i == ca || (i : Int) == batchAxis)
  let spatial := if rev then spatial.reverse else spatial
  (if ba ∈ ax then {0} else ∅) ∪ ((ax.erase ca).erase ba).image fun i => 1 + spatial.idxOf i

/-- `x /= jnp.sqrt(prod)`. -/
noncomputable def divSqrt (x prod : Arr ℝ) : Except Err (Arr ℝ) := bcastE (fun u v => u / Real.sqrt v) x prod

/-- The same for a value that may be `None`. -/
noncomputable def divSqrt? : Option (Arr ℝ) → Arr ℝ → Except Err (Option (Arr ℝ))
  | none, _ => .ok none
  | some x, prod => (divSqrt x prod).map some

/-- `kernel_fn` of `LayerNorm`, linear.py:2513-2583. -/
noncomputable def layerNormKernelFn (axis : List Int) (eps : ℝ) (batchAxis channelAxis : Int) (k : Kernel ℝ) : Except Err (Kernel ℝ) :=
  if !k.isGaussian then .error .notImplemented
  else do
    let ndim := k.shape1.length
    let ca := (channelAxis % ndim).toNat
    let ba := (batchAxis % ndim).toNat
    let ax ← Utils.canonicalizeAxis axis ndim
    if ca ∉ ax then .error .valueError
    else do
      let kax := layerNormAxes ax ndim ba ca batchAxis k.isReversed
      let m1 ← prepareMask ca k.isReversed k.mask1
      let m2 ← prepareMask ca k.isReversed k.mask2
      if ∀ a ∈ kax, a < k.cov1.ndim then do
        let (prod11, prod12, prod22) ← getDiagonalOuterProds (k.cov1.map fun v => eps + v) (k.cov2.map (·.map fun v => eps + v))
          k.diagonalBatch k.diagonalSpatial (fun u v : ℝ => u * v) (fun d => meanKeep d kax m1) (fun d => meanKeep d kax m2)
        let nngp ← divSqrt k.nngp prod12
        let ntk ← divSqrt? k.ntk prod12
        let cov1 ← divSqrt k.cov1 prod11
        let cov2 ← divSqrt? k.cov2 prod22
        return { k with cov1 := cov1, nngp := nngp, cov2 := cov2, ntk := ntk }
      else .error .indexError

end NT
