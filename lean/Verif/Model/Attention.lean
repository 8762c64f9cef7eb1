import Mathlib.Analysis.SpecialFunctions.Exp
import Mathlib.Analysis.SpecialFunctions.Pow.Real
import Verif.Model.Dense
import Verif.Model.Einsum
import Verif.Model.KernelOps
import Verif.Model.Lax

/-!
# `GlobalSelfAttention`, `neural_tangents/_src/stax/linear.py:1962-2473`
-/

namespace NT
open Arr Kernel

/-- `AttentionMechanism`, linear.py:1927-1957. -/
inductive Mechanism
  | softmax
  | identity
  | abs
  | relu
  deriving DecidableEq

/-- `PositionalEmbedding`, linear.py:1912-1924. -/
inductive PosEmb
  | none
  | sum
  | concat
  deriving DecidableEq

/-- The arguments of `GlobalSelfAttention` its kernel depends on, linear.py:1964-1984.  `decay` is `pos_emb_decay_fn`, taken to work
elementwise; the positional embedding has `posStd = W_pos_emb_std`. -/
structure Attention where
  linearScaling : Bool
  mechanism : Mechanism
  keyStd : ℝ
  queryStd : ℝ
  valueStd : ℝ
  outStd : ℝ
  bStd : Option ℝ
  posEmb : PosEmb
  pNorm : ℝ
  decay : Option (ℝ → ℝ)
  posChan : Option ℕ
  posStd : ℝ
  valPosEmb : Bool

namespace Attention

/-- `QK_std`, linear.py:2133. -/
def qkStd (l : Attention) : ℝ := l.queryStd * l.keyStd

/-- `OV_std`, linear.py:2134. -/
def ovStd (l : Attention) : ℝ := l.outStd * l.valueStd

/-- `_NEG_INF`, linear.py:3702. -/
def negInf : ℝ := -10 ^ 20

/-! ### Positional embeddings -/

/-- `_pos_emb_identity`, linear.py:3795-3799. -/
def posIdentity (shape : List ℕ) : Except Err (Arr ℝ) := zipAxes ((eye (sizeAt shape)).reshape (shape ++ shape))

/-- `pd` of `_pos_emb_pdist`, linear.py:3815-3819, with `abs(…) ** pos_emb_p_norm`. -/
noncomputable def posAxis (pNorm : ℝ) (shape : List ℕ) (axis : ℕ) : Arr ℝ :=
  let d : Arr ℝ := ⟨[shape.getD axis 0], fun i => (i.getD 0 0 : ℝ)⟩
  let pd := outerProd d (some d) 0 d.ndim fun x y => x - y
  (pd.reshape (List.replicate (2 * axis) 1 ++ pd.shape ++ List.replicate (2 * (shape.length - axis - 1)) 1)).map fun v => |v| ^ pNorm

/-- `_pos_emb_pdist`, linear.py:3802-3823. -/
noncomputable def posPdist (l : Attention) (shape : List ℕ) : Except Err (Arr ℝ) :=
  match l.decay with
  | none => posIdentity shape
  | some f =>
    let r := (List.range shape.length).foldl (fun r axis => bcast (fun x y => x + y) r (posAxis l.pNorm shape axis))
      ⟨List.replicate (2 * shape.length) 1, fun _ => 0⟩
    .ok (r.map f)

/-- `jnp.expand_dims(a, tuple(range(n)))`. -/
def expandLead {α : Type} (a : Arr α) (n : ℕ) : Arr α := ⟨List.replicate n 1 ++ a.shape, fun i => a.get (i.drop n)⟩

/-- `_get_mask_prods`, kernel.py:246-285: `mask11`, `mask12`, `mask22`. -/
def maskProds (k : Kernel ℝ) (m1 m2 : Option (Arr Bool)) :
    Except Err (Option (Arr Bool) × Option (Arr Bool) × Option (Arr Bool)) := do
  let mask11 ← maskProd k m1 m1 k.batchNdim
  let mask22 ← match m2 with
    | some _ => maskProd k m2 m2 k.batchNdim
    | none => .ok mask11
  let mask12 ← maskProd k m1 m2 2
  return (mask11, mask12, mask22)

/-- `_shape_and_axes`, linear.py:3853-3861: the sizes of the axes that are not ignored. -/
def spatialSizes (shape : List ℕ) (ignore : List ℕ) : List ℕ := gather (freeAxes shape.length ignore) shape

/-- `_get_all_pos_emb`, linear.py:3826-3850: `R11`, `R12`, `R22`. -/
noncomputable def allPosEmb (l : Attention) (k : Kernel ℝ) : Except Err (Option (Arr ℝ) × Option (Arr ℝ) × Option (Arr ℝ)) :=
  match l.posEmb with
  | .none => .ok (none, none, none)
  | _ => do
    let r ← posPdist l (spatialSizes k.shape1 [k.batchAxis, k.channelAxis])
    let r ← if k.isReversed then reverseZipped r 0 else .ok r
    let r11 := expandLead r k.batchNdim
    let r12 := expandLead r 2
    let (mask11, mask12, mask22) ← maskProds k k.mask1 k.mask2
    return (some (maskArr r11 mask11), some (maskArr r12 mask12), k.cov2.map fun _ => maskArr r11 mask22)

/-- `_get_interpolation_coefficients`, linear.py:2313-2326. -/
noncomputable def coefficients (l : Attention) (k : Kernel ℝ) : ℝ × ℝ :=
  match l.posEmb with
  | .concat =>
    let nIn := k.shape1.getD k.channelAxis 0
    let nPos := l.posChan.getD nIn
    (1 * (nIn / (nIn + nPos : ℕ)), l.posStd ^ 2 * (nPos / (nIn + nPos : ℕ)))
  | _ => (1, l.posStd ^ 2)

/-- A broadcasting operation on arrays of equal rank or with a scalar on the left. -/
def bcastS {α β γ : Type} (op : α → β → γ) (x : Arr α) (y : Arr β) : Arr γ :=
  if x.ndim = 0 then y.map (op (x.get [])) else bcast op x y

/-- `weighted_sum`, linear.py:2328-2331. -/
noncomputable def weightedSum (c : ℝ × ℝ) (x y : Option (Arr ℝ)) : Option (Arr ℝ) :=
  match x, y with
  | some x, some y => some (bcastS (fun u v => c.1 * u + c.2 * v) x y)
  | x, _ => x

/-! ### Linear scaling -/

/-- `attention_mechanism.fn()` for the elementwise mechanisms, linear.py:1951-1957. -/
noncomputable def fn : Mechanism → ℝ → ℝ
  | .abs, v => |v|
  | .relu, v => max v 0
  | _, v => v

/-- `ostax.softmax(a, axis=axes)`. -/
noncomputable def softmax (a : Arr ℝ) (axes : List ℕ) : Arr ℝ :=
  ⟨a.shape, fun i => Real.exp (a.get i) / sumOver (gather axes a.shape) fun c => Real.exp (a.get (replaceAt axes c i))⟩

/-- `jnp.all(mask, axis, keepdims=True)`. -/
def allKeep (m : Arr Bool) (axis : ℕ) : Arr Bool :=
  ⟨m.shape.set axis 1, fun i => (List.range (m.shape.getD axis 0)).all fun c => m.get (i.set axis c)⟩

/-- The masked scores of `_get_weighting`, linear.py:2348-2363. -/
noncomputable def scores (l : Attention) (k : Kernel ℝ) (mat : Arr ℝ) (mask : Option (Arr Bool)) : Except Err (Arr ℝ) := do
  let mat := if k.diagonalBatch then mat else (diagonalAdj mat 0).moveaxis [mat.ndim - 2] [0]
  match mask with
  | none => .ok mat
  | some m => do
    let m ← maskReshape k (allKeep m k.channelAxis)
    let m := interleaveOnes m 1 m.ndim false
    .ok (bcast (fun b v => if b then (if l.mechanism = .softmax then negInf else 0) else v) m mat)

/-- `_get_weighting`, linear.py:2344-2369. -/
noncomputable def weighting (l : Attention) (k : Kernel ℝ) (mat : Arr ℝ) (mask : Option (Arr Bool)) : Except Err (Arr ℝ) := do
  let mat ← l.scores k mat mask
  let mat := mat.map fun v => l.qkStd * v
  .ok (if l.mechanism = .softmax then softmax mat (pyRange 2 mat.ndim 2) else mat.map (fn l.mechanism))

/-- `l[1::2]`. -/
def odds {β : Type} : List β → List β
  | [] => []
  | [_] => []
  | _ :: b :: l => b :: odds l

/-- `l[::2]`. -/
def evens {β : Type} : List β → List β
  | [] => []
  | [a] => [a]
  | a :: _ :: l => a :: evens l

/-- `list(range(lo, hi))` as labels. -/
def labels (lo n : ℕ) : List ℤ := (List.range' lo n).map fun i : ℕ => (i : ℤ)

/-- `jnp.einsum` broadcasts axes of size 1 to the size of the other axes with the same label. -/
def stretch (ops : List (Arr ℝ × List ℤ)) (o : Arr ℝ × List ℤ) : Arr ℝ × List ℤ :=
  let sizeOf := fun l => (((ops.flatMap fun o => o.2.zip o.1.shape).filter fun p => p.1 = l ∧ p.2 ≠ 1).map Prod.snd).headD 1
  (⟨List.zipWith (fun n l => if n = 1 then sizeOf l else n) o.1.shape o.2, fun i => o.1.get (bcastIdx o.1.shape i)⟩, o.2)

/-- The `einsum` of `_weigh_kernel`, linear.py:2373-2395. -/
def mix (mat G1 G2 : Arr ℝ) : Except Err (Arr ℝ) :=
  let G1dims := labels 1 (G1.ndim - 1)
  let G2dims := labels G1.ndim (G2.ndim - 1)
  let matDims := zipFlat (odds G1dims) (odds G2dims)
  let resDims := zipFlat (evens G1dims) (evens G2dims)
  let ops := if mat.ndim % 2 = 1 then [(G1, 0 :: G1dims), (mat, 0 :: matDims), (G2, 0 :: G2dims)]
    else [(G1, 0 :: G1dims), (mat, 0 :: -1 :: matDims), (G2, -1 :: G2dims)]
  let res := if mat.ndim % 2 = 1 then 0 :: resDims else 0 :: -1 :: resDims
  Einsum.einsum (ops.map (stretch ops)) res

/-- `_weigh_kernel`, linear.py:2371-2397, for arrays that are not `None`. -/
noncomputable def weigh (l : Attention) (mat G1 : Arr ℝ) (G2 : Option (Arr ℝ)) : Except Err (Arr ℝ) := do
  let mat ← if mat.ndim ≠ 0 then mix mat G1 (G2.getD G1) else .ok mat
  .ok (affine mat l.ovStd l.bStd)

/-- `onOpt` for an operation with values in another type. -/
def onOpt' {A B : Type} (f : A → Except Err B) : Option A → Except Err (Option B)
  | none => .ok none
  | some a => (f a).map some

/-- `kernel_fn` with `linear_scaling=True`, linear.py:2305-2412, 2464-2468. -/
noncomputable def kernelLinear (l : Attention) (k : Kernel ℝ) : Except Err (Kernel ℝ) := do
  let (r1, r12, r2) ← l.allPosEmb k
  let c := l.coefficients k
  let cov1Interp := (weightedSum c (some k.cov1) r1).getD k.cov1
  let cov2Interp := weightedSum c k.cov2 r2
  let nngpInterp := (weightedSum c (some k.nngp) r12).getD k.nngp
  let ntkInterp := weightedSum c k.ntk r12
  let G1 ← l.weighting k cov1Interp k.mask1
  let G2 ← onOpt' (fun a => l.weighting k a k.mask2) cov2Interp
  let cov1 ← l.weigh (if l.valPosEmb then cov1Interp else k.cov1) G1 none
  let cov2 ← match if l.valPosEmb then cov2Interp else k.cov2, G2 with
    | some a, some G => (l.weigh a G none).map some
    | some a, none => .ok (some (affine a l.ovStd l.bStd))
    | none, _ => .ok none
  let nngp ← l.weigh (if l.valPosEmb then nngpInterp else k.nngp) G1 G2
  let ntk ← onOpt' (fun a => do
    let a ← l.weigh a G1 G2
    .ok (bcastS (fun u v => u + 2 * v) a (match l.bStd with | none => nngp | some b => nngp.map fun v => v - b ^ 2)))
    (if l.valPosEmb then ntkInterp else k.ntk)
  .ok { k with cov1 := cov1, nngp := nngp, cov2 := cov2, ntk := ntk, isGaussian := true }

/-! ### Square root scaling -/

/-- `dot` of the square root scaling, linear.py:2418-2431. -/
noncomputable def dot (diagonalBatch : Bool) (lhs : Arr ℝ) (rhs : Option (Arr ℝ)) : Except Err (Arr ℝ) :=
  let nb := if diagonalBatch then 1 else 2
  let cAxes := List.range' nb (lhs.ndim - nb)
  match rhs with
  | none => .ok (sumKeep (lhs.map fun v => v ^ 2) cAxes)
  | some rhs => do
    let rhs ← broadcastTo rhs lhs.shape
    let res ← dotGeneral lhs rhs cAxes cAxes (List.range nb) (List.range nb)
    .ok (res.reshape (res.shape ++ List.replicate cAxes.length 1))

/-- `cov2` with `linear_scaling=False`, linear.py:2439. -/
noncomputable def sqrtCov2 (l : Attention) : Option (Arr ℝ) → Option (Arr ℝ) → Option (Arr ℝ)
  | some d, some a => some (affine (bcast (fun u v => u * v) d a) (l.qkStd * l.ovStd) l.bStd)
  | _, _ => none

/-- The tangent kernel with `linear_scaling=False`, linear.py:2441-2457. -/
noncomputable def sqrtNtk (l : Attention) (k : Kernel ℝ) (nngpInterp dot12 ntkInterp : Arr ℝ) : Except Err (Arr ℝ) := do
  let ntk ← if l.valPosEmb ∨ l.posEmb = .none then (dot false nngpInterp (some ntkInterp)).map fun d => d.map fun v => 2 * v
    else do
      let d1 ← dot false nngpInterp k.ntk
      let d2 ← dot false k.nngp (some ntkInterp)
      .ok (bcast (fun u v => u + v) d1 d2)
  .ok (affine (bcast (fun u v => u + v) (bcast (fun u v => u * v) ntk nngpInterp)
    (bcast (fun u v => u * v) dot12 (bcastS (fun u v => u + 4 * v) ntkInterp nngpInterp))) (l.qkStd * l.ovStd) l.bStd)

/-- `kernel_fn` with `linear_scaling=False` and the identity mechanism, linear.py:2305-2342, 2414-2459, 2464-2468. -/
noncomputable def kernelSqrt (l : Attention) (k : Kernel ℝ) : Except Err (Kernel ℝ) := do
  let (r1, r12, r2) ← l.allPosEmb k
  let c := l.coefficients k
  let cov1Interp := (weightedSum c (some k.cov1) r1).getD k.cov1
  let cov2Interp := weightedSum c k.cov2 r2
  let nngpInterp := (weightedSum c (some k.nngp) r12).getD k.nngp
  let ntkInterp := weightedSum c k.ntk r12
  let dot11 ← dot k.diagonalBatch cov1Interp (if l.valPosEmb then none else some k.cov1)
  let dot12 ← dot false nngpInterp (if l.valPosEmb then none else some k.nngp)
  let dot22 ← onOpt' (fun a => dot k.diagonalBatch a (if l.valPosEmb then none else k.cov2)) cov2Interp
  let std := l.qkStd * l.ovStd
  let nngp := affine (bcast (fun u v => u * v) dot12 nngpInterp) std l.bStd
  let cov1 := affine (bcast (fun u v => u * v) dot11 cov1Interp) std l.bStd
  let cov2 := l.sqrtCov2 dot22 cov2Interp
  let ntk ← onOpt' (l.sqrtNtk k nngpInterp dot12) ntkInterp
  .ok { k with cov1 := cov1, nngp := nngp, cov2 := cov2, ntk := ntk, isGaussian := true }

/-- `kernel_fn`, linear.py:2305-2468. -/
noncomputable def kernelFn (l : Attention) (k : Kernel ℝ) : Except Err (Kernel ℝ) :=
  if l.linearScaling then l.kernelLinear k
  else if l.mechanism = .identity then l.kernelSqrt k
  else .error .notImplemented

/-- `mask_fn`, linear.py:2470-2471. -/
def maskFn (channelAxis : ℕ) (mask : Arr Bool) : Arr Bool := allKeep mask channelAxis

end Attention
end NT
