import Verif.Model.Dot

/-!
# `jnp.einsum` with integer labels

Documented meaning of `jnp.einsum(a, labels_a, b, labels_b, ..., out_labels)` (a JAX primitive, not part of `/repo`).
-/

namespace NT.Einsum
open NT Arr
variable {α : Type}

/-- The values `vs` for the labels `ls` (the first occurrence counts), 0 for other labels. -/
def assign {ι : Type} [DecidableEq ι] : List ι → List ℕ → ι → ℕ
  | l :: ls, v :: vs, x => if x = l then v else assign ls vs x
  | _, _, _ => 0

/-- The size of a label: that of the first axis with this label. -/
def size (ops : List (Arr α × List ℤ)) (l : ℤ) : ℕ := assign (ops.flatMap fun o => o.2) (ops.flatMap fun o => o.1.shape) l

/-- The labels that are summed over. -/
def summed (ops : List (Arr α × List ℤ)) (out : List ℤ) : List ℤ := (ops.flatMap fun o => o.2).dedup.filter fun l => l ∉ out

/-- The sum, over all values of the labels that are not in `out`, of the products of the operands.  `ValueError` if an operand has not as
many axes as labels, if axes with the same label have different sizes (JAX would also accept size 1, not modelled), if a label of the
output is repeated or is not one of an operand. -/
def einsum [Zero α] [One α] [Add α] [Mul α] (ops : List (Arr α × List ℤ)) (out : List ℤ) : Except Err (Arr α) :=
  if (∀ o ∈ ops, o.1.shape = o.2.map (size ops)) ∧ (∀ l ∈ out, l ∈ ops.flatMap fun o => o.2) ∧ out.Nodup then
    .ok ⟨out.map (size ops), fun i => sumOver ((summed ops out).map (size ops)) fun c =>
      (ops.map fun o => o.1.get (o.2.map (assign (out ++ summed ops out) (i ++ c)))).prod⟩
  else .error .valueError

end NT.Einsum
