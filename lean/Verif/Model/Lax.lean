import Verif.Model.Axes
import Verif.Model.Branching
import Verif.Model.Dot

/-!
# Array functions used by the Jacobian rules

Documented meaning of `jnp.eye`, `lax.rev`, `lax.broadcast_in_dim`, `jnp.broadcast_to`, `lax.reduce_sum`, `jnp.expand_dims`, `lax.pad`,
`jnp.diag` and `jnp.sum(..., keepdims=True)` (JAX primitives, not part of `/repo`).
-/

namespace NT
namespace Arr
variable {α : Type}

/-- `jnp.eye(n)`. -/
def eye [Zero α] [One α] (n : ℕ) : Arr α := ⟨[n, n], fun k => if k.getD 0 0 = k.getD 1 0 then 1 else 0⟩

/-- `jnp.eye(n, dtype=jnp.bool_)`. -/
def eyeBool (n : ℕ) : Arr Bool := ⟨[n, n], fun k => decide (k.getD 0 0 = k.getD 1 0)⟩

/-- `lax.rev(a, dims)`. -/
def rev (a : Arr α) (dims : List ℕ) : Arr α :=
  ⟨a.shape, fun k => a.get (k.mapIdx fun x d => if x ∈ dims then a.shape.getD x 0 - 1 - d else d)⟩

/-- `lax.broadcast_in_dim(a, shape, dims)`: axis `x` of `a` becomes axis `dims[x]`.  A `TypeError` if the sizes do not fit. -/
def broadcastInDim (a : Arr α) (shape dims : List ℕ) : Except Err (Arr α) :=
  if dims.length = a.ndim ∧ ∀ x, x < a.ndim → dims.getD x 0 < shape.length ∧ (a.shape.getD x 0 = 1 ∨ a.shape.getD x 0 = shape.getD (dims.getD x 0) 0) then
    .ok ⟨shape, fun k => a.get (a.shape.mapIdx fun x n => if n = 1 then 0 else k.getD (dims.getD x 0) 0)⟩
  else .error .typeError

/-- `jnp.broadcast_to(a, shape)`: axes are aligned at the end. -/
def broadcastTo (a : Arr α) (shape : List ℕ) : Except Err (Arr α) :=
  if a.ndim ≤ shape.length then broadcastInDim a shape ((List.range a.ndim).map (· + (shape.length - a.ndim))) else .error .valueError

/-- `lax.reduce_sum(a, axes)`: the sum of the entries with the given index at the other axes. -/
def reduceSum [Zero α] [Add α] (a : Arr α) (axes : List ℕ) : Arr α :=
  ⟨gather (freeAxes a.ndim axes) a.shape, fun o =>
    (((indices a.shape).filter fun i => gather (freeAxes a.ndim axes) i == o).map a.get).sum⟩

/-- `jnp.expand_dims(a, axes)`: `axes` are the positions of the new axes in the result. -/
def expandDims (a : Arr α) (axes : List ℕ) : Arr α :=
  let n := a.ndim + axes.length
  ⟨(List.range n).map fun x => if x ∈ axes then 1 else a.shape.getD ((freeAxes n axes).idxOf x) 0, fun k => a.get (gather (freeAxes n axes) k)⟩

/-- `lax.pad(a, v, cfg)`: low, high and interior padding of each axis.  (A size that would be negative, which JAX refuses, is zero here.) -/
def padLax (a : Arr α) (v : α) (cfg : List (ℤ × ℤ × ℕ)) : Arr α :=
  ⟨a.shape.mapIdx fun x n => let (lo, hi, r) := cfg.getD x (0, 0, 0); (lo + hi + n + (n - 1 : ℕ) * r).toNat, fun k =>
    let src := fun x => (k.getD x 0 : ℤ) - (cfg.getD x (0, 0, 0)).1
    let step := fun x => ((cfg.getD x (0, 0, 0)).2.2 : ℤ) + 1
    if ∀ x, x < a.ndim → 0 ≤ src x ∧ src x % step x = 0 ∧ src x / step x < a.shape.getD x 0 then
      a.get ((List.range a.ndim).map fun x => (src x / step x).toNat)
    else v⟩

/-- `add`, `sub`, `mul` and `div` on arrays of equal rank, with broadcasting, or on an array and a scalar. -/
def binLax {β γ : Type} (op : α → β → γ) (a : Arr α) (b : Arr β) : Except Err (Arr γ) :=
  if a.ndim = 0 then .ok ⟨b.shape, fun k => op (a.get []) (b.get k)⟩
  else if b.ndim = 0 then .ok ⟨a.shape, fun k => op (a.get k) (b.get [])⟩
  else if a.ndim = b.ndim ∧ ∀ x, x < a.ndim → a.shape.getD x 0 = b.shape.getD x 0 ∨ a.shape.getD x 0 = 1 ∨ b.shape.getD x 0 = 1 then .ok (bcast op a b)
  else .error .typeError

/-- `jnp.diag(v)`. -/
def diagMat [Zero α] (v : Arr α) : Arr α :=
  ⟨[v.shape.getD 0 0, v.shape.getD 0 0], fun k => if k.getD 0 0 = k.getD 1 0 then v.get [k.getD 0 0] else 0⟩

/-- The index `k` with `c` at the axes `axes`. -/
def replaceAt (axes : List ℕ) (c k : List ℕ) : List ℕ := k.mapIdx fun x d => if x ∈ axes then c.getD (axes.idxOf x) 0 else d

/-- `jnp.sum(a, axis=axes, keepdims=True)`. -/
def sumKeep [Zero α] [Add α] (a : Arr α) (axes : List ℕ) : Arr α :=
  ⟨a.shape.mapIdx fun x n => if x ∈ axes then 1 else n, fun k => sumOver (gather axes a.shape) fun c => a.get (replaceAt axes c k)⟩

/-- `jnp.where(mask, a, 0)`, with broadcasting of arrays of equal rank. -/
def whereMask [Zero α] (m : Arr Bool) (a : Arr α) : Arr α := bcast (fun b v => if b then v else 0) m a

/-- `a[..., d:d+1, ...]` at `axis`. -/
def sliceKeep (a : Arr α) (axis d : ℕ) : Arr α := ⟨a.shape.set axis 1, fun k => a.get (k.set axis (k.getD axis 0 + d))⟩

end Arr
end NT
