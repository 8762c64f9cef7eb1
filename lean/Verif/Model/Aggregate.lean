import Verif.Model.KernelDot
import Verif.Model.KernelOps
import Verif.Model.Utils
import Verif.Model.Dot

/-!
# `stax.Aggregate`

`neural_tangents/_src/stax/linear.py:258-757`.  `to_dense` (applied to the pattern of the dense implementation) is taken to be the identity,
its default: the dense pattern is the array after `to_dense`.
-/

namespace NT.Aggregate
open NT Arr
variable {α : Type}

/-- The arguments `aggregate_axis`, `batch_axis`, `channel_axis` of the layer, linear.py:258-266. -/
structure Layer where
  axes : Option (List ℤ)
  batchAxis : ℤ
  channelAxis : ℤ

/-- `get_agg_axes`, linear.py:458-466: the aggregated axes, the batch axis and the channel axis.  `tuple(canonicalize_axis(..))` lists a set of
axes; the order is taken to be increasing (true for CPython sets of integers below 8). -/
def Layer.aggAxes (l : Layer) (n : ℕ) : Except Err (List ℕ × ℕ × ℕ) :=
  let ba := (l.batchAxis % (n : ℤ)).toNat
  let ca := (l.channelAxis % (n : ℤ)).toNat
  match l.axes with
  | none => .ok ((List.range n).filter (fun i => i ∉ [ba, ca]), ba, ca)
  | some ax => do
    let s ← Utils.canonicalizeAxis ax n
    return ((List.range n).filter (fun i => i ∈ s), ba, ca)

/-- `apply_fn` of the dense implementation, linear.py:557-574. -/
def Layer.applyDense [Zero α] [Add α] [Mul α] (l : Layer) (x pattern : Arr α) : Except Err (Arr α) := do
  let n := x.ndim
  let (agg, ba, ca) ← l.aggAxes n
  let K := agg.length
  let out ← dotGeneral x pattern agg (List.range' 1 K) [ba] [0]
  let outC := Utils.axisAfterDot ca agg [ba] none
  let outB := Utils.axisAfterDot ba agg [ba] none
  return out.moveaxis ([outB, outC] ++ List.range' (out.ndim - K) K) ([ba, ca] ++ agg)

/-- `get_senders_receivers`, linear.py:480-505 (`pattern.shape[-1]` of a scalar is an `IndexError`). -/
def sendersReceivers (pattern : Arr ℤ) (batch K : ℕ) : Except Err (Arr ℤ × Arr ℤ) :=
  match pattern.shape.getLast? with
  | none => .error .indexError
  | some two =>
    if two ≠ 2 then .error .valueError
    else
      let part (side : ℕ) : Arr ℤ := ⟨pattern.shape.dropLast, fun i => pattern.get (i ++ [side])⟩
      let expand (s : Arr ℤ) : Arr ℤ := if K = 1 ∧ s.ndim = 2 then ⟨s.shape ++ [1], fun i => s.get i.dropLast⟩ else s
      let s := expand (part 0)
      let r := expand (part 1)
      if s.ndim ≠ 3 then .error .valueError
      else if s.shape.getD 2 0 ≠ K then .error .valueError
      else if s.shape.getD 0 0 ≠ batch then .error .valueError
      else .ok (s, r)

/-- `make_indices`, linear.py:473-478, for example `b`: the row-major numbers of the vertices (coordinates taken modulo the sizes,
`'wrap'`), `-1` if a coordinate is negative. -/
def makeIndices (p : Arr ℤ) (aggShape : List ℕ) (b : ℕ) : List ℤ :=
  (List.range (p.shape.getD 1 0)).map fun e =>
    let v := (List.range (p.shape.getD 2 0)).map fun k => p.get [b, e, k]
    if ∀ x ∈ v, 0 ≤ x then (ravel aggShape (List.zipWith (fun x (d : ℕ) => (x % (d : ℤ)).toNat) v aggShape) : ℕ) else -1

/-- `x[ids]` for an integer array `ids`: rows of `x`, a negative number counts from the end. -/
def takeRows (x : Arr α) (ids : List ℤ) : Arr α :=
  let n := x.shape.headD 0
  ⟨ids.length :: x.shape.tail, fun i =>
    let s := ids.getD (i.headD 0) 0
    x.get ((if s < 0 then s + n else s).toNat :: i.tail)⟩

/-- `jax.ops.segment_sum(data, ids, num_segments)`: row `v` is the sum of the rows `e` of `data` with `ids[e] = v`; rows with a number outside
`0 .. num_segments - 1` (in particular negative) are dropped. -/
def segmentSum [Zero α] [Add α] (data : Arr α) (ids : List ℤ) (num : ℕ) : Arr α :=
  ⟨num :: data.shape.tail, fun i =>
    ((List.range ids.length).map fun e => if ids.getD e (-1) = (i.headD 0 : ℕ) then data.get (e :: i.tail) else 0).sum⟩

/-- `vmap` over a leading axis of size `n`: the results are stacked. -/
def vmap0 (n : ℕ) (f : ℕ → Arr α) : Arr α := ⟨n :: (f 0).shape, fun i => (f (i.headD 0)).get i.tail⟩

/-- Row `b` of an array. -/
def row (x : Arr α) (b : ℕ) : Arr α := ⟨x.shape.tail, fun i => x.get (b :: i)⟩

/-- `apply_fn` of the sparse implementation, linear.py:576-602. -/
def Layer.applySparse [Zero α] [Add α] (l : Layer) (x : Arr α) (pattern : Arr ℤ) : Except Err (Arr α) := do
  let n := x.ndim
  let (agg, ba, ca) ← l.aggAxes n
  let K := agg.length
  let (s, r) ← sendersReceivers pattern (x.shape.getD ba 0) K
  let src := [ba] ++ agg ++ [ca]
  let dst := [0] ++ List.range' 1 K ++ [n - 1]
  let inputs := x.moveaxis src dst
  let shape := inputs.shape
  let inputs ← inputs.reshapeE ([shape.getD 0 0, ((shape.drop 1).take K).prod] ++ shape.drop (K + 1))
  let aggShape := (shape.drop 1).take K
  let out := vmap0 (inputs.shape.getD 0 0) fun b =>
    let inp := row inputs b
    segmentSum (takeRows inp (makeIndices s aggShape b)) (makeIndices r aggShape b) (inp.shape.headD 0)
  let out ← out.reshapeE shape
  return out.moveaxis dst src

/-- `apply_fn`, linear.py:507-605. -/
def Layer.apply [Zero α] [Add α] [Mul α] (l : Layer) (x : Arr α) : Option (Arr α ⊕ Arr ℤ) → Except Err (Arr α)
  | none => .ok x
  | some (.inl dense) => l.applyDense x dense
  | some (.inr sparse) => l.applySparse x sparse

/-- `np.argsort` (of distinct numbers). -/
def argsort (l : List ℕ) : List ℕ := (List.range l.length).mergeSort fun i j => l.getD i 0 ≤ l.getD j 0

/-- `bucket_axes`, linear.py:646-663: `agg_1`, `agg_2`, `non_agg_1`, `non_agg_2`; the first component of the result in the code is
`range(start_axis)`. -/
def bucketAxes (agg : List ℕ) (ba ca ndim start : ℕ) : List ℕ × List ℕ × List ℕ × List ℕ :=
  let m := (ndim - start) / 2
  let agg1 := agg.map fun a => a - (if ba < a then 1 else 0) - (if ca < a then 1 else 0) + start
  let agg2 := agg1.map (· + m)
  let non1 := (List.range' start m).filter fun a => a ∉ agg1
  let non2 := (List.range' (start + m) (ndim - (start + m))).filter fun a => a ∉ agg2
  (agg1, agg2, non1, non2)

/-- `transpose`, linear.py:678-688. -/
def restore (agg : List ℕ) (ba ca : ℕ) (k : Arr α) (diagBatch : Bool) : Except Err (Arr α) :=
  if k.ndim = 0 then .ok k
  else do
    let start := if diagBatch then 1 else 2
    let k ← unzipAxes k start
    let (agg1, agg2, non1, non2) := bucketAxes agg ba ca k.ndim start
    let k ← Kernel.transposeE k (argsort (List.range start ++ non1 ++ agg1 ++ non2 ++ agg2))
    zipAxes k start

/-- An operation on an array that may be `None`. -/
def opt {β : Type} (f : β → Except Err β) : Option β → Except Err (Option β)
  | none => .ok none
  | some a => (f a).map some

/-- `kernel_fn` of the dense implementation, linear.py:638-697, for two patterns. -/
def Layer.kernelDense [Zero α] [One α] [Add α] [Mul α] (l : Layer) (k : Kernel α) (p1 p2 : Arr α) : Except Err (Kernel α) := do
  let n := k.shape1.length
  let (agg, ba, ca) ← l.aggAxes n
  let k ← KernelDot.dotGeneral k (some p1) (some p2) false (agg.map fun (a : ℕ) => (a : ℤ)) ((List.range' 1 agg.length).map fun (a : ℕ) => (a : ℤ)) [(ba : ℤ)] [0]
  let cov1 ← restore agg ba ca k.cov1 k.diagonalBatch
  let cov2 ← opt (restore agg ba ca · k.diagonalBatch) k.cov2
  let nngp ← restore agg ba ca k.nngp false
  let ntk ← opt (restore agg ba ca · false) k.ntk
  return { k with cov1 := cov1, cov2 := cov2, nngp := nngp, ntk := ntk, batchAxis := ba, channelAxis := ca }

/-- `pass_messages` of the kernel, linear.py:701-713. -/
def passMessages [Zero α] [Add α] (s1 s2 r1 r2 : List ℤ) (k : Arr α) : Arr α :=
  let v1 := k.shape.getD 0 0
  let v2 := k.shape.getD 1 0
  let k := takeRows k s1
  let k := vmap0 s1.length fun e => takeRows (row k e) s2
  let k := vmap0 s1.length fun e => segmentSum (row k e) r2 v2
  segmentSum k r1 v1

/-- `agg`, linear.py:726-744; `s1 b` etc. list the vertex numbers of example `b`. -/
def aggArray [Zero α] [Add α] (agg : List ℕ) (ba ca aggSize : ℕ) (k : Arr α) (diagBatch : Bool) (s1 r1 s2 r2 : ℕ → List ℤ) : Except Err (Arr α) :=
  if k.ndim = 0 then .ok k
  else do
    let start := if diagBatch then 1 else 2
    let k ← unzipAxes k start
    let (agg1, agg2, non1, non2) := bucketAxes agg ba ca k.ndim start
    let perm := List.range start ++ agg1 ++ agg2 ++ non1 ++ non2
    let k : Arr α ← Kernel.transposeE k perm
    let shape := k.shape
    let k : Arr α ← k.reshapeE (shape.take start ++ [aggSize, aggSize] ++ shape.drop (start + 2 * agg.length))
    let k : Arr α :=
      if diagBatch then vmap0 (k.shape.getD 0 0) fun b => passMessages (s1 b) (s2 b) (r1 b) (r2 b) (row k b)
      else vmap0 (k.shape.getD 0 0) fun b1 => vmap0 (k.shape.getD 1 0) fun b2 => passMessages (s1 b1) (s2 b2) (r1 b1) (r2 b2) (row (row k b1) b2)
    let k : Arr α ← k.reshapeE shape
    let k : Arr α ← Kernel.transposeE k (argsort perm)
    zipAxes k start

/-- `kernel_fn` of the sparse implementation, linear.py:699-750, for two patterns. -/
def Layer.kernelSparse [Zero α] [Add α] (l : Layer) (k : Kernel α) (p1 p2 : Arr ℤ) : Except Err (Kernel α) := do
  let n := k.shape1.length
  let (agg, ba, ca) ← l.aggAxes n
  let aggShape := agg.map (k.shape1.getD · 0)
  let (s1, r1) ← sendersReceivers p1 (k.shape1.getD ba 0) agg.length
  let (s2, r2) ← sendersReceivers p2 (k.shape2.getD ba 0) agg.length
  let s1 := makeIndices s1 aggShape
  let r1 := makeIndices r1 aggShape
  let s2 := makeIndices s2 aggShape
  let r2 := makeIndices r2 aggShape
  let nngp ← aggArray agg ba ca aggShape.prod k.nngp false s1 r1 s2 r2
  let ntk ← opt (aggArray agg ba ca aggShape.prod · false s1 r1 s2 r2) k.ntk
  let cov1 ← aggArray agg ba ca aggShape.prod k.cov1 k.diagonalBatch s1 r1 s1 r1
  let cov2 ← opt (aggArray agg ba ca aggShape.prod · k.diagonalBatch s2 r2 s2 r2) k.cov2
  return { k with nngp := nngp, ntk := ntk, cov1 := cov1, cov2 := cov2 }

/-- `kernel_fn`, linear.py:607-755; the patterns are of the kind that the implementation takes. -/
def Layer.kernel [Zero α] [One α] [Add α] [Mul α] (l : Layer) (k : Kernel α) (pattern : (Option (Arr α) × Option (Arr α)) ⊕ (Option (Arr ℤ) × Option (Arr ℤ))) :
    Except Err (Kernel α) :=
  match pattern with
  | .inl (none, none) => .ok k
  | .inr (none, none) => .ok k
  | .inl (some p1, some p2) => l.kernelDense k p1 p2
  | .inr (some p1, some p2) => l.kernelSparse k p1 p2
  | _ => .error .notImplemented

end NT.Aggregate
