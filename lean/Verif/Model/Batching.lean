import Verif.Model.Kernel

/-!
# `neural_tangents/_src/batching.py`

Array keyword arguments (`rng`, `pattern`, ...) are not modelled; non-array
arguments are closed over in the kernel function.  Trees of inputs/outputs are
modelled by their leaves (see C17 for `nt_tree_fn`).
-/

namespace NT.Batching
open NT Arr

variable {α β C X Y : Type}

/-- The loop of `_scan`, batching.py:155-162: carry and the list of outputs. -/
def scanLoop (f : C → X → Except Err (C × Y)) : C → List X → Except Err (C × List Y)
  | c, [] => .ok (c, [])
  | c, x :: xs =>
    match f c x with
    | .error e => .error e
    | .ok (c', y) =>
      match scanLoop f c' xs with
      | .error e => .error e
      | .ok (c'', ys) => .ok (c'', y :: ys)

/-- What the batching code needs of an output type: stacking of pytrees
(`tree_map(lambda *y: jnp.stack(y), *ys)`) and `_flatten_kernel`. -/
class BatchOut (K : Type) where
  stack : List K → Except Err K
  flatten : K → (x2IsNone isParallel : Bool) → Except Err K

/-- `_scan`, batching.py:143-164. -/
def scan {K : Type} [BatchOut K] (f : C → X → Except Err (C × K)) (init : C) (xs : List X) :
    Except Err (C × K) :=
  match scanLoop f init xs with
  | .error e => .error e
  | .ok (c, ys) =>
    match BatchOut.stack ys with
    | .error e => .error e
    | .ok y => .ok (c, y)

/-- `_flatten_batch_dimensions`, batching.py:167-191.  `jnp.reshape(k, (-1,) + ...)` of line 177
is written with the inferred size. -/
def flattenBatchDims (k : Arr α) (isParallel : Bool) (discardAxis : Option Nat := none) : Arr α :=
  match discardAxis with
  | some d =>
    if !isParallel then
      let k := k.take 0 d
      k.reshape ((k.shape.getD 0 1 * k.shape.getD 1 1) :: k.shape.drop 2)
    else if d = 1 then
      k.reshape ((k.shape.getD 0 1 * k.shape.getD 1 1) :: k.shape.drop 2)
    else k.lead 0
  | none =>
    if isParallel then
      k.reshape ((k.shape.getD 0 1 * k.shape.getD 1 1) :: k.shape.drop 2)
    else
      let k := k.transpose ([0, 2, 1, 3] ++ List.range' 4 (k.ndim - 4))
      k.reshape ((k.shape.getD 0 1 * k.shape.getD 1 1) ::
        (k.shape.getD 2 1 * k.shape.getD 3 1) :: k.shape.drop 4)

/-- `shape[:batch_axis] + (shape[batch_axis] * b,) + shape[batch_axis+1:]`, batching.py:237-240. -/
def scaleAxis (shape : List Nat) (axis b : Nat) : List Nat :=
  shape.take axis ++ [shape.getD axis 1 * b] ++ shape.drop (axis + 1)

/-- `_flatten_kernel_dict` applied to `Kernel.asdict()`, batching.py:194-245 (and 258-259).
`mask2` is flattened with unary minus on a boolean array (line 232), which NumPy and JAX reject
with a `TypeError`.  `ntk` of rank 0 is not considered. -/
def flattenKernel (k : Kernel α) (x2IsNone isParallel : Bool) : Except Err (Kernel α) :=
  if !k.diagonalBatch then .error .notImplemented
  else
    let b1 := k.nngp.shape.getD 0 1
    let b2 := k.nngp.shape.getD 1 1
    let k' : Kernel α :=
      { k with
        nngp := flattenBatchDims k.nngp isParallel
        ntk := k.ntk.map fun n => flattenBatchDims n isParallel
        cov1 := flattenBatchDims k.cov1 isParallel (some 1)
        cov2 := if x2IsNone then none
                else k.cov2.map fun c => flattenBatchDims c isParallel (some 0)
        x1IsX2 := ⟨[], fun _ => k.x1IsX2.get (List.replicate k.x1IsX2.ndim 0)⟩
        mask1 := k.mask1.map fun m => flattenBatchDims m isParallel (some 1)
        mask2 := none
        shape1 := scaleAxis k.shape1 k.batchAxis b1
        shape2 := if isParallel then k.shape2 else scaleAxis k.shape2 k.batchAxis b2 }
    match k.mask2 with
    | none => .ok k'
    | some _ => if x2IsNone then .ok k' else .error .typeError

/-- Stacking an optional leaf: `None` is an empty subtree, so mixing raises. -/
def stackOpt {γ : Type} (l : List (Option (Arr γ))) : Except Err (Option (Arr γ)) :=
  match l with
  | [] => .error .typeError
  | none :: l => if ∀ o ∈ l, o.isNone then .ok none else .error .valueError
  | some a :: l =>
    if ∀ o ∈ l, o.isSome then
      match stackE (a :: l.filterMap id) with
      | .ok r => .ok (some r)
      | .error e => .error e
    else .error .valueError

/-- `tree_map(lambda *y: jnp.stack(y), *ys)` on `Kernel`s: the static fields are part of the tree
structure and must agree. -/
def stackKernels (l : List (Kernel α)) : Except Err (Kernel α) :=
  match l with
  | [] => .error .typeError
  | k :: ks =>
    if ∀ k' ∈ ks, k'.static = k.static then do
      let nngp ← stackE (l.map (·.nngp))
      let ntk ← stackOpt (l.map (·.ntk))
      let cov1 ← stackE (l.map (·.cov1))
      let cov2 ← stackOpt (l.map (·.cov2))
      let x1IsX2 ← stackE (l.map (·.x1IsX2))
      let mask1 ← stackOpt (l.map (·.mask1))
      let mask2 ← stackOpt (l.map (·.mask2))
      return { k with nngp, ntk, cov1, cov2, x1IsX2, mask1, mask2 }
    else .error .valueError

/-- A kernel function returning an array: `_flatten_kernel`, batching.py:261-262. -/
instance : BatchOut (Arr α) where
  stack := stackE
  flatten k _ p := .ok (flattenBatchDims k p)

/-- A kernel function returning a `Kernel`. -/
instance : BatchOut (Kernel α) where
  stack := stackKernels
  flatten := flattenKernel

/-- `divmod(a, b)` where `b` is a NumPy integer: `(0, 0)` (and a warning) when `b` is zero. -/
def divmodNp (a b : Nat) : Nat × Nat := if b = 0 then (0, 0) else (a / b, a % b)

/-- `_get_n_batches_and_batch_sizes`, batching.py:647-679.  `device_count >= 1` at the only call
sites (batching.py:347).  When the effective batch size is 0 it is a NumPy integer
(`np.gcd(..) // device_count`), so `divmod` does not raise. -/
def nBatches (n1 n2 batchSize deviceCount : Nat) : Except Err (Nat × Nat × Nat × Nat) :=
  let maxSerial := Nat.gcd n1 n2 / deviceCount
  let n2bs := min batchSize maxSerial
  let n1bs := n2bs * deviceCount
  let (n1b, ragged1) := divmodNp n1 n1bs
  if ragged1 ≠ 0 then .error .valueError
  else
    let (n2b, ragged2) := divmodNp n2 n2bs
    if ragged2 ≠ 0 then .error .valueError
    else .ok (n1b, n1bs, n2b, n2bs)

/-- Iterating over the leading axis of an array. -/
def rows (a : Arr α) : List (Arr α) := (List.range (a.shape.headD 0)).map a.lead

/-- `serial_fn_x1`, batching.py:361-422, on single-array inputs and no array keyword arguments. -/
def serialX1 {K : Type} [BatchOut K] (kernelFn : Arr β → Arr β → Except Err K)
    (batchSize deviceCount : Nat) (x1 : Arr β) (x2? : Option (Arr β)) : Except Err K :=
  let x2 := x2?.getD x1
  match x1.shape, x2.shape with
  | n1 :: s1, n2 :: s2 => do
    let (n1b, n1bs, n2b, n2bs) ← nBatches n1 n2 batchSize deviceCount
    let x1s ← x1.reshapeE (n1b :: n1bs :: s1)
    let x2s ← x2.reshapeE (n2b :: n2bs :: s2)
    let colFn := fun (c : Arr β) (y : Arr β) => (kernelFn c y).map fun k => (c, k)
    let rowFn := fun (u : Nat) (c : Arr β) => (scan colFn c (rows x2s)).map fun p => (u, p.2)
    let (_, k) ← scan rowFn 0 (rows x1s)
    BatchOut.flatten k x2?.isNone false
  | _, _ => .error .indexError

/-- `_get_n_per_device`, batching.py:561-573. -/
def nPerDevice (n1 deviceCount : Nat) : Except Err (Nat × Nat) :=
  if deviceCount = 0 then .error .zeroDivision
  else
    let q := n1 / deviceCount
    let r := n1 % deviceCount
    if q ≠ 0 ∧ r ≠ 0 then .error .valueError
    else if q = 0 then .ok (1, r)
    else .ok (q, deviceCount)

/-- `pmap` of a function over the leading axis of its first argument, second argument broadcast:
every device computes on its slice and the results are stacked. -/
def pmap {K : Type} [BatchOut K] (f : Arr β → Arr β → Except Err K) (xs x2 : Arr β) :
    Except Err K :=
  match (rows xs).mapM fun x => f x x2 with
  | .error e => .error e
  | .ok ks => BatchOut.stack ks

/-- `parallel_fn_x1`, batching.py:575-608, on single-array inputs.  `_check_dropout`
(lines 551-559) is not modelled: it never raises when dropout is not used. -/
def parallelX1 {K : Type} [BatchOut K] (kernelFn : Arr β → Arr β → Except Err K)
    (deviceCount : Nat) (x1 : Arr β) (x2? : Option (Arr β)) : Except Err K :=
  let x2 := x2?.getD x1
  match x1.shape with
  | n1 :: s1 => do
    let (perDev, devs) ← nPerDevice n1 deviceCount
    let x1s ← x1.reshapeE (devs :: perDev :: s1)
    let k ← pmap kernelFn x1s x2
    BatchOut.flatten k x2?.isNone true
  | _ => .error .indexError

/-- `batch` with both `batch_size > 0` and several devices, batching.py:120-132: `_serial` of
`_parallel`.  `_serial` passes `x2` explicitly. -/
def serialParallelX1 {K : Type} [BatchOut K] (kernelFn : Arr β → Arr β → Except Err K)
    (batchSize deviceCount : Nat) (x1 : Arr β) (x2? : Option (Arr β)) : Except Err K :=
  serialX1 (fun a b => parallelX1 kernelFn deviceCount a (some b)) batchSize (max deviceCount 1)
    x1 x2?

/-- `serial_fn_kernel`, batching.py:424-486, on a single `Kernel` and no array keyword arguments:
tiles are obtained by `Kernel.slice`. -/
def serialKernel (kernelFn : Kernel α → Except Err (Kernel β)) (batchSize deviceCount : Nat)
    (k : Kernel α) : Except Err (Kernel β) :=
  match k.nngp.shape with
  | n1 :: n2 :: _ => do
    let (n1b, n1bs, n2b, n2bs) ← nBatches n1 n2 batchSize deviceCount
    let n1s := (List.range n1b).map (· * n1bs)
    let n2s := (List.range n2b).map (· * n2bs)
    let colFn := fun (a : Nat) (b : Nat) => (kernelFn (k.slice a n1bs b n2bs)).map fun r => (a, r)
    let rowFn := fun (u : Nat) (a : Nat) => (scan colFn a n2s).map fun p => (u, p.2)
    let (_, r) ← scan rowFn 0 n1s
    let r := if k.cov2.isNone then { r with cov2 := none } else r
    flattenKernel r k.cov2.isNone false
  | _ => .error .indexError

end NT.Batching
