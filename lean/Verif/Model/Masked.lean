import Verif.Model.Network

/-!
# Layers with masks: `supports_masking` and the mask functions of the layers

`stax/requirements.py:137-253`, `stax/linear.py`.  The layers `Dense`, `Conv`, pooling, nonlinearities, `Dropout`, `Identity`, composed by
`serial`.
-/

namespace NT.Masked
open NT NT.Network Arr

/-- `jnp.all(mask, axis=a, keepdims=True)`. -/
def allKeep (m : Arr Bool) (a : Nat) : Arr Bool :=
  ⟨m.shape.set a 1, fun i => (List.range (m.shape.getD a 0)).all fun c => m.get (i.set a c)⟩

/-- The slice of an axis of size `n`, window `w`, stride `s` in `_pool_mask`, linear.py:3740-3743. -/
def maskSlice (pad : Padding) (n w s out : Nat) : Utils.Entry :=
  let start : Int := -((padsOf pad n w s).1 : Int) + ((w : Int) - 1) / 2
  .slice (some start) (some (start + 1 + ((out : Int) - 1) * s)) (some s)

/-- The slices of all axes, linear.py:3739-3743. -/
def maskSlices (pad : Padding) : List Nat → List (Nat × Nat) → List Nat → List Utils.Entry
  | n :: S, (w, s) :: ws, o :: os => maskSlice pad n w s o :: maskSlices pad S ws os
  | _, _, _ => []

/-- `_pool_mask`, linear.py:3714-3754. -/
def poolMask (m : Arr Bool) (window : List (Nat × Nat)) (pad : Padding) (ba ca : Nat) : Except Err (Arr Bool) :=
  let ws := actIdx ba ca (1, 1) (1, 1) window
  let out := windowShape pad m.shape ws
  if m.shape = out then .ok m
  else do
    let m' ← Kernel.npIndex m (maskSlices pad m.shape ws out)
    if m'.shape = out then .ok m' else .error .valueError

/-- The layers with masks.  `act f remask` is a nonlinearity with the argument of its decorator `supports_masking(remask_kernel)`. -/
inductive MLayer where
  | dense (d : Dense)
  | conv (d : Conv)
  | pool (d : Pool)
  | act (f : Kernel ℝ → Except Err (Kernel ℝ)) (remask : Bool)
  | dropout (d : Dropout)
  | identity
  | globalPool (d : GlobalPool)

/-- The layer without its mask function. -/
def MLayer.layer : MLayer → Layer
  | .dense d => .dense d
  | .conv d => .conv d
  | .pool d => .pool d
  | .act f _ => .act f
  | .dropout d => .dropout d
  | .identity => .identity
  | .globalPool d => .globalPool d

/-- The argument of the decorator `supports_masking`: linear.py:761 (`Dense`), 935, 1055 (`Conv`, `ConvLocal`), 1458, 1504 (`AvgPool`, `SumPool`),
2589 (`Dropout`), 108 (`Identity`), 1675, 1700 (`GlobalSumPool`, `GlobalAvgPool`), and for the nonlinearities the decorators in elementwise.py. -/
def MLayer.remask : MLayer → Bool
  | .dense _ => true
  | .conv _ => true
  | .pool _ => true
  | .act _ r => r
  | .dropout _ => false
  | .identity => false
  | .globalPool _ => false

/-- `mask_fn` of `_GlobalPool`, linear.py:1803-1808. -/
def globalMask (d : GlobalPool) (m : Arr Bool) : Except Err (Arr Bool) :=
  let ba := (d.batchAxis % (m.ndim : Int)).toNat
  let ca := (d.channelAxis % (m.ndim : Int)).toNat
  if m.shape.getD ca 0 ≠ 1 then .error .notImplemented
  else
    let S := gather ((List.range m.ndim).filter fun i => !([ba, ca].contains i)) m.shape
    let bf := decide (ba < ca)
    .ok ⟨if bf then [m.shape.getD ba 0, m.shape.getD ca 0] else [m.shape.getD ca 0, m.shape.getD ba 0],
      fun i => (indices S).all fun p =>
        m.get (actIdx ba ca (i.getD (if bf then 0 else 1) 0) (i.getD (if bf then 1 else 0) 0) p)⟩

/-- `mask_fn` of the layers: linear.py:928-929 (`Dense`), 1426-1452 (`_Conv`), 1666-1669 (`_Pool`; `'CIRCULAR'` is not a padding of
`lax.reduce_window`), 1803-1808 (`_GlobalPool`), and the identity where none is given (requirements.py:186-188). -/
def MLayer.maskFn : MLayer → Arr Bool → Except Err (Arr Bool)
  | .dense d, m => .ok (allKeep m (d.channelAxis % (m.ndim : Int)).toNat)
  | .conv d, m => poolMask (allKeep m d.channelAxis) d.filter (if d.padding = .circular then .same else d.padding) d.batchAxis d.channelAxis
  | .pool d, m =>
    if m.shape.getD d.ca 0 ≠ 1 then .error .notImplemented
    else if d.padding = .circular then .error .valueError
    else poolMask m d.window d.padding d.batchAxis d.ca
  | .globalPool d, m => globalMask d m
  | .act _ _, m => .ok m
  | .dropout _, m => .ok m
  | .identity, m => .ok m

/-- `mean_and_var(x, axis, mask=mask)[0]` over the axes from `bn` on, requirements.py:1118-1157: the sum of *all* entries, divided by the number of those
that are not masked, at least 1.  Simplified: a mask has the shape of the array (other shapes that `jnp.broadcast_to` accepts raise here). -/
noncomputable def maskedMean (bn : Nat) (x : Arr ℝ) : Option (Arr Bool) → Except Err (Arr ℝ)
  | none => .ok (meanTail bn x)
  | some m =>
    if m.shape ≠ x.shape then .error .valueError
    else .ok ⟨x.shape.take bn, fun i =>
      (sumOver (x.shape.drop bn) fun p => x.get (i ++ p)) /
        (max ((x.shape.drop bn).prod - sumOver (x.shape.drop bn) fun p => if m.get (i ++ p) then 1 else 0) 1 : ℕ)⟩

/-- `_pool` with `pool_fn`, linear.py:1750-1755, 1778-1785. -/
noncomputable def poolArr (d : GlobalPool) (diagonalSpatial : Bool) (bn : Nat) (mat : Arr ℝ) (mask : Option (Arr Bool)) : Except Err (Arr ℝ) := do
  let out ← match d.type with
    | .avg => maskedMean bn mat mask
    | .sum => .ok (GlobalPool.poolTail .sum bn mat)
  return if diagonalSpatial ∧ d.type = .avg then out.map fun v => v / ((mat.shape.drop bn).prod : ℕ) else out

/-- The same for an optional array. -/
noncomputable def poolArr? (d : GlobalPool) (diagonalSpatial : Bool) (bn : Nat) (mat : Option (Arr ℝ)) (mask : Option (Arr Bool)) :
    Except Err (Option (Arr ℝ)) :=
  match mat with
  | none => .ok none
  | some a => (poolArr d diagonalSpatial bn a mask).map some

/-- `kernel_fn` of `_GlobalPool`, linear.py:1773-1801. -/
noncomputable def globalPoolKernel (d : GlobalPool) (k : Kernel ℝ) : Except Err (Kernel ℝ) := do
  let mask11 ← Kernel.maskProd k k.mask1 k.mask1 k.batchNdim
  let mask22 ← match k.mask2 with
    | some _ => Kernel.maskProd k k.mask2 k.mask2 k.batchNdim
    | none => .ok mask11
  let mask12 ← Kernel.maskProd k k.mask1 k.mask2 2
  let cov1 ← poolArr d k.diagonalSpatial k.batchNdim k.cov1 mask11
  let cov2 ← poolArr? d k.diagonalSpatial k.batchNdim k.cov2 mask22
  let nngp ← poolArr d k.diagonalSpatial 2 k.nngp mask12
  let ntk ← poolArr? d k.diagonalSpatial 2 k.ntk mask12
  let batchFirst := decide (d.batchAxis % (k.shape1.length : Int) < d.channelAxis % (k.shape1.length : Int))
  return { k with cov1 := cov1, nngp := nngp, cov2 := cov2, ntk := ntk, batchAxis := if batchFirst then 0 else 1,
                  channelAxis := if batchFirst then 1 else 0, isReversed := false }

/-- `kernel_fn` of the layer, before masks are propagated. -/
noncomputable def MLayer.kernelFn : MLayer → Kernel ℝ → Except Err (Kernel ℝ)
  | .globalPool d, k => globalPoolKernel d k
  | l, k => l.layer.kernelFn k

/-- `mask_fn` with `None`, requirements.py:197-201. -/
def onMask (f : Arr Bool → Except Err (Arr Bool)) : Option (Arr Bool) → Except Err (Option (Arr Bool))
  | none => .ok none
  | some m => (f m).map some

/-- `kernel_fn_with_masking`, requirements.py:228-246. -/
noncomputable def MLayer.withMasking (l : MLayer) (k : Kernel ℝ) : Except Err (Kernel ℝ) := do
  let m1 ← onMask l.maskFn k.mask1
  let m2 ← onMask l.maskFn k.mask2
  let k' ← l.kernelFn k
  if l.remask then k'.mask m1 m2 else .ok { k' with mask1 := m1, mask2 := m2 }

/-- `kernel_fn` of `serial(*layers)`, combinators.py:60-66, on kernels; each layer with the output shape of its `init_fn`, and `_set_shapes`,
requirements.py:857-879. -/
noncomputable def run : List (MLayer × (List Nat → List Nat)) → Kernel ℝ → Except Err (Kernel ℝ)
  | [], k => .ok k
  | (l, out) :: rest, k => do
    let k' ← l.withMasking k
    run rest (setShapes (out k.shape1) (out k.shape2) k')

end NT.Masked
