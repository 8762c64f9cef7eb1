import Verif.Model.KernelOps

/-!
# Fan-in layers: `neural_tangents/_src/stax/branching.py`
-/

namespace NT
namespace Arr
variable {α β γ : Type}

/-- Elementwise operation on two arrays with NumPy broadcasting, simplified: the shapes are equal or one
of the arrays is a scalar; anything else is an error. -/
def zipB (op : α → β → γ) (a : Arr α) (b : Arr β) : Except Err (Arr γ) :=
  if a.shape = b.shape then .ok ⟨a.shape, fun i => op (a.get i) (b.get i)⟩
  else if a.shape = [] then .ok ⟨b.shape, fun i => op (a.get []) (b.get i)⟩
  else if b.shape = [] then .ok ⟨a.shape, fun i => op (a.get i) (b.get [])⟩
  else .error .valueError

/-- `sum(mats)` (which starts with `0 + mats[0]`) and, with `mul` and `1.`, the running products: a fold
from a scalar. -/
def foldB (op : α → α → α) : Arr α → List (Arr α) → Except Err (Arr α)
  | acc, [] => .ok acc
  | acc, m :: ms =>
    match zipB op acc m with
    | .error e => .error e
    | .ok r => foldB op r ms

/-- A scalar. -/
def scalar (x : α) : Arr α := ⟨[], fun _ => x⟩

/-- The entry of the concatenation of the arrays `m :: ms` along `axis` at the index `i`. -/
def catGet (axis : Nat) : Arr α → List (Arr α) → List Nat → α
  | m, [], i => m.get i
  | m, m' :: ms, i =>
    if i.getD axis 0 < m.shape.getD axis 0 then m.get i
    else catGet axis m' ms (i.set axis (i.getD axis 0 - m.shape.getD axis 0))

/-- `jnp.concatenate(mats, axis)`: raises for no arrays, for an axis out of range, and for shapes that
differ at another axis. -/
def concatE (ms : List (Arr α)) (axis : Nat) : Except Err (Arr α) :=
  match ms with
  | [] => .error .valueError
  | m :: ms =>
    if axis < m.ndim ∧ ∀ m' ∈ ms, m'.shape.set axis 0 = m.shape.set axis 0 then
      .ok ⟨m.shape.set axis (((m :: ms).map fun m => m.shape.getD axis 0).sum), catGet axis m ms⟩
    else .error .valueError

/-- `jnp.pad(mat, pads)` with `pads` zero but `(lo, hi)` at `axis`. -/
def pad [Zero α] (a : Arr α) (axis lo hi : Nat) : Arr α :=
  ⟨a.shape.set axis (lo + a.shape.getD axis 0 + hi), fun i =>
    if lo ≤ i.getD axis 0 ∧ i.getD axis 0 < lo + a.shape.getD axis 0 then
      a.get (i.set axis (i.getD axis 0 - lo))
    else 0⟩

end Arr

namespace Kernel
open Arr
variable {α : Type}

/-- `k.reverse()` if needed. -/
def orient (rev : Bool) (k : Kernel α) : Except Err (Kernel α) :=
  if k.isReversed = rev then .ok k else k.reverse

/-- A loop over kernels. -/
def mapE {A B : Type} (f : A → Except Err B) : List A → Except Err (List B)
  | [] => .ok []
  | a :: as =>
    match f a with
    | .error e => .error e
    | .ok b =>
      match mapE f as with
      | .error e => .error e
      | .ok bs => .ok (b :: bs)

/-- `_preprocess_kernels_for_fan_in`, branching.py:376-411 (without the warning), for the kernels
`k0 :: ks`. -/
def preprocessFanIn (k0 : Kernel α) (ks : List (Kernel α)) : Except Err (List (Kernel α) × Bool) :=
  if ∀ k ∈ ks, k.diagonalBatch = k0.diagonalBatch ∧ k.diagonalSpatial = k0.diagonalSpatial ∧
      k.batchAxis = k0.batchAxis ∧ k.channelAxis = k0.channelAxis then
    let all := k0 :: ks
    let rev : Bool := 2 * all.countP (·.isReversed) > all.length
    match mapE (orient rev) all with
    | .error e => .error e
    | .ok r => .ok (r, rev)
  else .error .notImplemented

/-- Optional arrays as arrays, an error if one is missing. -/
def allSome {A : Type} : List (Option A) → Option (List A)
  | [] => some []
  | none :: _ => none
  | some a :: as => (allSome as).map (a :: ·)

/-- `_mats_sum`, branching.py:87: `None` if the first is `None`, else `sum(mats)` (a `TypeError` if
another one is `None`). -/
def matsSum [Zero α] [Add α] (mats : List (Option (Arr α))) : Except Err (Option (Arr α)) :=
  match mats with
  | [] => .error .indexError
  | none :: _ => .ok none
  | some m :: ms =>
    match allSome (some m :: ms) with
    | none => .error .typeError
    | some l => (foldB (· + ·) (scalar 0) l).map some

/-- The kernel returned by the fan-in layers, branching.py:95-112, 164-181: everything but the
covariances is taken from the first kernel.  `FanInProd` and `FanInConcat` return shapes `None`, which
the decorator `layer` fills in; here the shapes of the first kernel are kept. -/
def fanInResult (k0 : Kernel α) (rev gauss : Bool) (nngp cov1 : Arr α) (cov2 ntk : Option (Arr α)) :
    Kernel α :=
  { k0 with nngp, cov1, cov2, ntk, isGaussian := gauss, isReversed := rev, mask1 := none, mask2 := none }

/-- `kernel_fn` of `FanInSum`, branching.py:68-112. -/
def fanInSum [Zero α] [Add α] (ks : List (Kernel α)) : Except Err (Kernel α) :=
  match ks with
  | [] => .error .indexError
  | k0 :: rest =>
    match preprocessFanIn k0 rest with
    | .error e => .error e
    | .ok (ks', rev) =>
      if ¬ ∀ k ∈ rest, k.shape1 = k0.shape1 ∧ k.shape2 = k0.shape2 then .error .valueError
      else
        let gauss := ks'.all (·.isGaussian)
        if !gauss && ks'.length != 1 then .error .notImplemented
        else
          match matsSum (ks'.map fun k => some k.cov1), matsSum (ks'.map (·.cov2)),
              matsSum (ks'.map fun k => some k.nngp), matsSum (ks'.map (·.ntk)) with
          | .ok (some cov1), .ok cov2, .ok (some nngp), .ok ntk =>
            .ok (fanInResult k0 rev gauss nngp cov1 cov2 ntk)
          | .error e, _, _, _ => .error e
          | _, .error e, _, _ => .error e
          | _, _, .error e, _ => .error e
          | _, _, _, .error e => .error e
          | .ok none, _, _, _ => .error .typeError
          | _, _, .ok none, _ => .error .typeError

/-- The loop of `_mats_prod`, branching.py:149-152. -/
def matsProdLoop [Add α] [Mul α] : List (Arr α × Arr α) → Arr α × Arr α → Except Err (Arr α × Arr α)
  | [], acc => .ok acc
  | (nngp, ntk) :: l, (nngpProd, ntkProd) =>
    match zipB (· * ·) ntkProd nngp, zipB (· * ·) nngpProd ntk, zipB (· * ·) nngpProd nngp with
    | .ok a, .ok b, .ok c =>
      match zipB (· + ·) a b with
      | .ok d => matsProdLoop l (c, d)
      | .error e => .error e
    | .error e, _, _ => .error e
    | _, .error e, _ => .error e
    | _, _, .error e => .error e

/-- `functools.reduce(jnp.multiply, mats)`. -/
def reduceMul [Mul α] : List (Arr α) → Except Err (Arr α)
  | [] => .error .typeError
  | m :: ms => foldB (· * ·) m ms

/-- `_mats_prod`, branching.py:145-153. -/
def matsProd [Zero α] [One α] [Add α] [Mul α] (nngps : List (Arr α)) (ntks : List (Option (Arr α))) :
    Except Err (Arr α × Option (Arr α)) :=
  match allSome ntks with
  | none => (reduceMul nngps).map fun r => (r, none)
  | some ts => (matsProdLoop (nngps.zip ts) (scalar 1, scalar 0)).map fun r => (r.1, some r.2)

/-- `cov2` of `FanInProd`, branching.py:161. -/
def optProd [Mul α] (cs : List (Option (Arr α))) : Except Err (Option (Arr α)) :=
  match allSome cs with
  | none => .ok none
  | some l => (reduceMul l).map some

/-- `kernel_fn` of `FanInProd`, branching.py:137-181. -/
def fanInProd [Zero α] [One α] [Add α] [Mul α] (ks : List (Kernel α)) : Except Err (Kernel α) :=
  match ks with
  | [] => .error .indexError
  | k0 :: rest =>
    match preprocessFanIn k0 rest with
    | .error e => .error e
    | .ok (ks', rev) =>
      if ¬ ∀ k ∈ rest, k.shape1 = k0.shape1 ∧ k.shape2 = k0.shape2 then .error .valueError
      else
        let gauss := ks'.length == 1 && k0.isGaussian
        match reduceMul (ks'.map (·.cov1)), optProd (ks'.map (·.cov2)),
            matsProd (ks'.map (·.nngp)) (ks'.map (·.ntk)) with
        | .ok cov1, .ok cov2, .ok (nngp, ntk) => .ok (fanInResult k0 rev gauss nngp cov1 cov2 ntk)
        | .error e, _, _ => .error e
        | _, .error e, _ => .error e
        | _, _, .error e => .error e

end Kernel

/-! ## Masks -/

namespace Masks
open Arr

/-- The index into an array of shape `s` that broadcasting uses for the index `i`: 0 along axes of size 1. -/
def clip (i s : List Nat) : List Nat := List.zipWith (fun d n => if n = 1 then 0 else d) i s

/-- The broadcast shape of two shapes of the same rank. -/
def bcast : List Nat → List Nat → Option (List Nat)
  | [], [] => some []
  | m :: ms, n :: ns =>
    if m = n ∨ n = 1 then (bcast ms ns).map (m :: ·)
    else if m = 1 then (bcast ms ns).map (n :: ·)
    else none
  | _, _ => none

/-- `mask1 & mask2`, for masks of the same rank (masks have the rank of the activations,
requirements.py:351-359). -/
def andB (a b : Arr Bool) : Except Err (Arr Bool) :=
  match bcast a.shape b.shape with
  | none => .error .typeError
  | some s => .ok ⟨s, fun i => a.get (clip i a.shape) && b.get (clip i b.shape)⟩

/-- `add_two_masks`, branching.py:308-315. -/
def addTwo : Option (Arr Bool) → Option (Arr Bool) → Except Err (Option (Arr Bool))
  | none, m => .ok m
  | m, none => .ok m
  | some a, some b => (andB a b).map some

/-- The fold of `_sum_masks`. -/
def sumFrom : Option (Arr Bool) → List (Option (Arr Bool)) → Except Err (Option (Arr Bool))
  | acc, [] => .ok acc
  | acc, m :: ms =>
    match addTwo acc m with
    | .error e => .error e
    | .ok r => sumFrom r ms

/-- `_sum_masks`, branching.py:307-318. -/
def sum (ms : List (Option (Arr Bool))) : Except Err (Option (Arr Bool)) := sumFrom none ms

/-- `jnp.broadcast_to(m, s)` for a mask of the rank of `s`. -/
def broadcastTo (m : Arr Bool) (s : List Nat) : Except Err (Arr Bool) :=
  if List.Forall₂ (fun n d => n = d ∨ n = 1) m.shape s then .ok ⟨s, fun i => m.get (clip i m.shape)⟩
  else .error .valueError

/-- `_map_tuples(max, shapes)`, branching.py:303-304, for shapes of the same rank. -/
def maxShape : List (List Nat) → List Nat
  | [] => []
  | [s] => s
  | s :: ss => List.zipWith max s (maxShape ss)

/-- First step of `_concat_masks`, branching.py:349-354: expand the concatenation axis to the size of the
input. -/
def expand (axis : Nat) (m : Arr Bool) (inputShape : List Nat) : Except Err (Arr Bool) :=
  broadcastTo m (m.shape.set axis (inputShape.getD axis 0))

/-- Second step, branching.py:363-369: broadcast to the largest shape along the other axes. -/
def widen (axis : Nat) (mx : List Nat) (m : Arr Bool) : Except Err (Arr Bool) :=
  broadcastTo m (mx.set axis (m.shape.getD axis 0))

/-- `_concat_masks`, branching.py:321-373, with `axis` reduced modulo the rank.  A missing mask beside a
present one is replaced by `jnp.zeros_like(max_shapes[i])` where `max_shapes[i]` is a *tuple*, which
JAX rejects (branching.py:369). -/
def concat (ms : List (Option (Arr Bool))) (inputShapes : List (List Nat)) (axis : Nat) :
    Except Err (Option (Arr Bool)) :=
  if ms.length ≠ inputShapes.length then .error .valueError
  else if ∀ m ∈ ms, m = none then .ok none
  else
    match Kernel.allSome ms with
    | none => .error .typeError
    | some l =>
      match Kernel.mapE (fun p : Arr Bool × List Nat => expand axis p.1 p.2) (l.zip inputShapes) with
      | .error e => .error e
      | .ok ms1 =>
        match Kernel.mapE (widen axis (maxShape (ms1.map (·.shape)))) ms1 with
        | .error e => .error e
        | .ok ms2 => (concatE ms2 axis).map some

end Masks
end NT
