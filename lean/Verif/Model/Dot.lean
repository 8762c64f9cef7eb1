import Verif.Model.Arr

/-!
# Contractions of arrays

Documented meaning of `lax.dot_general`, `jnp.tensordot` and `jnp.sum` (JAX primitives, not part of
`/repo`).
-/

namespace NT
namespace Arr
variable {α : Type}

/-- The axes of an array of rank `n` that are not in `used`, in increasing order. -/
def freeAxes (n : Nat) (used : List Nat) : List Nat := (List.range n).filter fun k => !(used.contains k)

/-- The sum of `f` over all multi-indices of the shape `s`. -/
def sumOver [Zero α] [Add α] (s : List Nat) (f : List Nat → α) : α := ((indices s).map f).sum

/-- `lax.dot_general(a, b, ((cA, cB), (bA, bB)))`: axes of the result are the batch axes, then the free
axes of `a`, then those of `b`.  A `TypeError` if the sizes of paired axes differ. -/
def dotGeneral [Zero α] [Add α] [Mul α] (a b : Arr α) (cA cB bA bB : List Nat) : Except Err (Arr α) :=
  if gather cA a.shape = gather cB b.shape ∧ gather bA a.shape = gather bB b.shape then
    let fA := freeAxes a.ndim (bA ++ cA)
    let fB := freeAxes b.ndim (bB ++ cB)
    let a' := a.transpose (bA ++ fA ++ cA)
    let b' := b.transpose (bB ++ fB ++ cB)
    .ok ⟨gather bA a.shape ++ gather fA a.shape ++ gather fB b.shape, fun i =>
      let ib := i.take bA.length
      let iA := (i.drop bA.length).take fA.length
      let iB := (i.drop bA.length).drop fA.length
      sumOver (gather cA a.shape) fun c => a'.get (ib ++ iA ++ c) * b'.get (ib ++ iB ++ c)⟩
  else .error .typeError

/-- `jnp.tensordot(a, b, (cA, cB))`. -/
def tensordot [Zero α] [Add α] [Mul α] (a b : Arr α) (cA cB : Nat) : Except Err (Arr α) :=
  dotGeneral a b [cA] [cB] [] []

/-- `jnp.sum(a, axis)`. -/
def sumAxis [Zero α] [Add α] (a : Arr α) (axis : Nat) : Arr α :=
  ⟨a.shape.eraseIdx axis, fun i => ((List.range (a.shape.getD axis 0)).map fun c => a.get (i.insertIdx axis c)).sum⟩

end Arr
end NT
