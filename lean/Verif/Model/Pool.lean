import Verif.Model.Window
import Verif.Spec.Act
import Verif.Model.Flatten

/-!
# Pooling layers: `neural_tangents/_src/stax/linear.py:1540-1810`, `3499-3572`
-/

namespace NT
open Arr

/-- `_Pooling`, linear.py:72-82. -/
inductive Pooling
  | avg
  | sum
  deriving DecidableEq

/-- `_normalize`, linear.py:3562-3572. -/
noncomputable def normalize (lhs out : Arr ℝ) (normalizeEdges : Bool) (pad : Padding) (ws : List (Nat × Nat)) : Arr ℝ :=
  if pad = .same ∧ normalizeEdges = true then
    let sizes := reduceWindow (lhs.map fun _ => 1) ws pad
    ⟨out.shape, fun i => out.get i / sizes.get i⟩
  else out.map fun v => v / ((ws.map Prod.fst).prod : ℕ)

/-- `_pool_kernel`, linear.py:3499-3559, with the windows and strides of all axes (1 for batch axes). -/
noncomputable def poolKernel (lhs : Arr ℝ) (type : Pooling) (ws : List (Nat × Nat)) (pad : Padding)
    (normalizeEdges : Bool) : Arr ℝ :=
  let lhs := if pad = .circular then samePadWrap lhs ws else lhs
  let pad := if pad = .circular then .valid else pad
  let out := reduceWindow lhs ws pad
  if type = .avg then normalize lhs out normalizeEdges pad ws else out

/-- The arguments of `_Pool`, linear.py:1542-1552; `window` lists window size and stride of each spatial
axis. -/
structure Pool where
  type : Pooling
  window : List (Nat × Nat)
  padding : Padding
  normalizeEdges : Bool
  batchAxis : Nat
  channelAxis : Int

namespace Pool

/-- `channel_axis % (2 + len(strides))`, linear.py:1601. -/
def ca (d : Pool) : Nat := (d.channelAxis % ((d.window.length : Int) + 2)).toNat

/-- `apply_fn`, linear.py:1593-1627.  `ostax.AvgPool` (not in /repo) divides by the number of entries of the
window that are not in the padding, `ostax.SumPool` does not divide; the variant of linear.py:1622-1627
divides by the window size. -/
noncomputable def apply (d : Pool) (x : Arr ℝ) : Arr ℝ :=
  let ws := actIdx d.batchAxis d.ca (1, 1) (1, 1) d.window
  let x := if d.padding = .circular then samePadWrap x ws else x
  let pad := if d.padding = .circular then .valid else d.padding
  let out := reduceWindow x ws pad
  match d.type with
  | .sum => out
  | .avg =>
    if d.padding = .circular ∨ d.normalizeEdges = true then
      let sizes := reduceWindow (x.map fun _ => 1) ws pad
      ⟨out.shape, fun i => out.get i / sizes.get i⟩
    else out.map fun v => v / ((d.window.map Prod.fst).prod : ℕ)

/-- The windows of a kernel array, linear.py:1635-1641, 1556. -/
def kernelWindow (d : Pool) (k : Kernel ℝ) (bn : Nat) : List (Nat × Nat) :=
  List.replicate bn (1, 1) ++
    if k.diagonalSpatial then d.window
    else (if k.isReversed then d.window.reverse else d.window).flatMap fun v => [v, v]

/-- `pool`, linear.py:1643-1655. -/
noncomputable def pool (d : Pool) (k : Kernel ℝ) (bn : Nat) (mat : Arr ℝ) : Arr ℝ :=
  if mat.ndim = 0 then mat
  else
    let ws := d.kernelWindow k bn
    let out := poolKernel mat d.type ws d.padding d.normalizeEdges
    if k.diagonalSpatial ∧ d.type = .avg then normalize mat out d.normalizeEdges d.padding ws else out

/-- `kernel_fn`, linear.py:1629-1661. -/
noncomputable def kernelFn (d : Pool) (k : Kernel ℝ) : Kernel ℝ :=
  let bn := if k.diagonalBatch then 1 else 2
  { k with nngp := d.pool k 2 k.nngp, ntk := k.ntk.map (d.pool k 2), cov1 := d.pool k bn k.cov1,
           cov2 := k.cov2.map (d.pool k bn) }

end Pool

/-- The arguments of `_GlobalPool`. -/
structure GlobalPool where
  type : Pooling
  batchAxis : Int
  channelAxis : Int

namespace GlobalPool

/-- `pool_fn` over the axes from `bn` on without a mask, linear.py:1751-1756: `jnp.mean` / `jnp.sum`. -/
noncomputable def poolTail (type : Pooling) (bn : Nat) (x : Arr ℝ) : Arr ℝ :=
  match type with
  | .avg => meanTail bn x
  | .sum => ⟨x.shape.take bn, fun i => sumOver (x.shape.drop bn) fun p => x.get (i ++ p)⟩

/-- `apply_fn` without a mask, linear.py:1766-1771.  Simplified: the mean / sum over the spatial axes of the
activations is written with the index of the batch and channel axes, which remain in their order. -/
noncomputable def apply (d : GlobalPool) (x : Arr ℝ) : Arr ℝ :=
  let ba := (d.batchAxis % (x.ndim : Int)).toNat
  let ca := (d.channelAxis % (x.ndim : Int)).toNat
  let rest := (List.range x.ndim).filter fun i => !([ba, ca].contains i)
  let S := gather rest x.shape
  let bf := decide (ba < ca)
  let get := fun (i : List Nat) => sumOver S fun p =>
    x.get (actIdx ba ca (i.getD (if bf then 0 else 1) 0) (i.getD (if bf then 1 else 0) 0) p)
  ⟨if bf then [x.shape.getD ba 0, x.shape.getD ca 0] else [x.shape.getD ca 0, x.shape.getD ba 0],
   fun i => match d.type with
    | .avg => get i / (S.prod : ℕ)
    | .sum => get i⟩

/-- `_pool`, linear.py:1778-1785, without a mask. -/
noncomputable def pool (d : GlobalPool) (k : Kernel ℝ) (bn : Nat) (mat : Arr ℝ) : Arr ℝ :=
  let out := poolTail d.type bn mat
  if k.diagonalSpatial ∧ d.type = .avg then out.map fun v => v / ((mat.shape.drop bn).prod : ℕ) else out

/-- `kernel_fn`, linear.py:1773-1803, for a kernel without masks. -/
noncomputable def kernelFn (d : GlobalPool) (k : Kernel ℝ) : Kernel ℝ :=
  let bn := if k.diagonalBatch then 1 else 2
  let n : Int := k.shape1.length
  let batchFirst := decide (d.batchAxis % n < d.channelAxis % n)
  { k with cov1 := d.pool k bn k.cov1, nngp := d.pool k 2 k.nngp, cov2 := k.cov2.map (d.pool k bn),
           ntk := k.ntk.map (d.pool k 2), batchAxis := if batchFirst then 0 else 1,
           channelAxis := if batchFirst then 1 else 0, isReversed := false }

end GlobalPool
end NT
