import Mathlib.Data.List.Basic
import Mathlib.Data.List.Forall2
import Mathlib.Algebra.BigOperators.Group.List.Basic

/-!
# n-dimensional arrays

The array type used by the whole model.  It stands for `np.ndarray` /
`jnp.ndarray`.  Only the *documented meaning* of the NumPy/JAX primitives is
modelled (they are not part of `/repo`): a shape and a value for every
multi-index.  dtypes, strides, devices and memory layout are not modelled.
-/

namespace NT

/-- The exceptions raised by the modelled code (Python exception classes). -/
inductive Err where
  | valueError
  | typeError
  | indexError
  | notImplemented
  | zeroDivision
  | attributeError
  | assertion
  | keyError
  | nameError
  deriving DecidableEq, Repr

/-- `i` is an in-range multi-index for an array of shape `s`. -/
def InRange (i s : List Nat) : Prop := List.Forall₂ (· < ·) i s

instance (i s : List Nat) : Decidable (InRange i s) := by
  unfold InRange; infer_instance

/-- An array: shape and value at every multi-index.  Values at out-of-range
multi-indices carry no meaning, see `Arr.Eqv`. -/
structure Arr (α : Type*) where
  shape : List Nat
  get : List Nat → α

namespace Arr

variable {α β γ : Type*}

/-- Equality of arrays: same shape, same value at each in-range multi-index. -/
def Eqv (a b : Arr α) : Prop :=
  a.shape = b.shape ∧ ∀ i, InRange i a.shape → a.get i = b.get i

scoped infix:50 " ≋ " => Arr.Eqv

/-- `x.ndim` -/
def ndim (a : Arr α) : Nat := a.shape.length

/-- Elementwise map. -/
def map (f : α → β) (a : Arr α) : Arr β := ⟨a.shape, fun i => f (a.get i)⟩

/-- `[x[p] for p in perm]` for a list `x`. -/
def gather (perm : List Nat) (x : List Nat) : List Nat := perm.map fun p => x.getD p 0

/-- The multi-index `j` (of length `n`) with `gather perm j = i`. -/
def scatter (perm : List Nat) (n : Nat) (i : List Nat) : List Nat :=
  (List.range n).map fun k => i.getD (perm.idxOf k) 0

/-- `jnp.transpose(a, perm)`: output axis `k` is input axis `perm[k]`. -/
def transpose (a : Arr α) (perm : List Nat) : Arr α :=
  ⟨gather perm a.shape, fun i => a.get (scatter perm a.ndim i)⟩

/-- Python `list.insert(pos, x)` for `pos >= 0` (appends when `pos` is past the end). -/
def pyInsert {β : Type*} (l : List β) (pos : Nat) (x : β) : List β :=
  l.take pos ++ x :: l.drop pos

/-- Order on `(destination, source)` pairs used by `sorted(zip(dst, src))`. -/
def pairLe (p q : Nat × Nat) : Bool := p.1 < q.1 || (p.1 == q.1 && p.2 ≤ q.2)

/-- The permutation built by `jnp.moveaxis` / `np.moveaxis`:
`order = [n for n in range(ndim) if n not in source]`, then
`for dest, src in sorted(zip(destination, source)): order.insert(dest, src)`. -/
def moveaxisPerm (n : Nat) (src dst : List Nat) : List Nat :=
  (((dst.zip src).mergeSort pairLe)).foldl (fun acc p => pyInsert acc p.1 p.2)
    ((List.range n).filter fun k => !(src.contains k))

/-- `jnp.moveaxis(a, src, dst)` for non-negative axes. -/
def moveaxis (a : Arr α) (src dst : List Nat) : Arr α :=
  a.transpose (moveaxisPerm a.ndim src dst)

/-- Row-major position of multi-index `i` in shape `s`. -/
def ravel : List Nat → List Nat → Nat
  | _ :: s, i :: is => i * s.prod + ravel s is
  | _, _ => 0

/-- Multi-index of row-major position `k` in shape `s`. -/
def unravel : List Nat → Nat → List Nat
  | [], _ => []
  | _ :: s, k => k / s.prod :: unravel s (k % s.prod)

/-- `jnp.reshape(a, s)` (row-major).  Only meaningful if `s.prod = a.shape.prod`. -/
def reshape (a : Arr α) (s : List Nat) : Arr α :=
  ⟨s, fun i => a.get (unravel a.shape (ravel s i))⟩

/-- `jnp.reshape(a, s)` with JAX's size check: a `TypeError` when the number of elements differs. -/
def reshapeE (a : Arr α) (s : List Nat) : Except Err (Arr α) :=
  if s.prod = a.shape.prod then .ok (a.reshape s) else .error .typeError

/-- `jnp.stack(l)` along a new leading axis.  A `TypeError` for no arrays (this is what
`tree_map(lambda *y: jnp.stack(y), *[])` gives), a `ValueError` for unequal shapes. -/
def stackE : List (Arr α) → Except Err (Arr α)
  | [] => .error .typeError
  | a :: l =>
    if ∀ b ∈ l, b.shape = a.shape then
      .ok ⟨(l.length + 1) :: a.shape, fun
        | t :: i => ((a :: l).getD t a).get i
        | [] => a.get []⟩
    else .error .valueError

/-- `a[k]`: the `k`-th slice along the leading axis. -/
def lead (a : Arr α) (k : Nat) : Arr α := ⟨a.shape.tail, fun i => a.get (k :: i)⟩

/-- `jnp.take(a, k, axis)`. -/
def take (a : Arr α) (k axis : Nat) : Arr α :=
  ⟨a.shape.eraseIdx axis, fun i => a.get (i.take axis ++ k :: i.drop axis)⟩

/-- `a[lo:lo+len]`: a contiguous slice of the leading axis. -/
def sliceLead (a : Arr α) (lo len : Nat) : Arr α :=
  ⟨len :: a.shape.tail, fun
    | k :: i => a.get ((lo + k) :: i)
    | [] => a.get []⟩

/-- `jnp.broadcast_to(a, (d,) + a.shape)`. -/
def broadcastLead (a : Arr α) (d : Nat) : Arr α :=
  ⟨d :: a.shape, fun i => a.get i.tail⟩

/-- All in-range multi-indices of a shape in row-major order. -/
def indices : List Nat → List (List Nat)
  | [] => [[]]
  | n :: s => (List.range n).flatMap fun k => (indices s).map (k :: ·)

/-- Row-major list of values (used to display examples). -/
def toList (a : Arr α) : List α := (indices a.shape).map a.get

/-- Array from a row-major list of values (used to write examples). -/
def ofList [Inhabited α] (s : List Nat) (l : List α) : Arr α :=
  ⟨s, fun i => l.getD (ravel s i) default⟩

end Arr
end NT
