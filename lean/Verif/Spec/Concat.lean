import Verif.Spec.Layout
import Mathlib.Algebra.BigOperators.Fin

/-!
# Concatenation of arrays along an axis, as a reader would state it

Block `r` of the concatenation of arrays of sizes `n 0, n 1, …` starts at `offset n r`.
-/

namespace NT.Spec
variable {α : Type} {m : ℕ}

/-- The total size of the blocks before block `r`. -/
def offset (n : Fin m → ℕ) (r : Fin m) : ℕ := ∑ s, if s < r then n s else 0

/-- The position `p` of block `r` as a position in the concatenation along axis `s`. -/
def shift (s : ℕ) (n : Fin m → ℕ) (r : Fin m) (p : List ℕ) : List ℕ := p.set s (offset n r + p.getD s 0)

/-- The size along axis `s` of the shape of each block. -/
def sizes (s : ℕ) (S : Fin m → List ℕ) : Fin m → ℕ := fun r => (S r).getD s 0

/-- `F'` is the block-diagonal arrangement, along axis `s` of the positions, of the covariances `F r`:
positions in different blocks have covariance zero. -/
def SpatialBlocks [Zero α] (s : ℕ) (S T : Fin m → List ℕ) (F : Fin m → List ℕ → List ℕ → List ℕ → α)
    (F' : List ℕ → List ℕ → List ℕ → α) : Prop :=
  ∀ r r' b p q, InRange p (S r) → InRange q (T r') →
    F' b (shift s (sizes s S) r p) (shift s (sizes s T) r' q) = if r = r' then F r b p q else 0

/-- `F'` is the block-diagonal arrangement along the batch of the covariances `F r`. -/
def BatchBlocks [Zero α] (n n' : Fin m → ℕ) (F : Fin m → List ℕ → List ℕ → List ℕ → α)
    (F' : List ℕ → List ℕ → List ℕ → α) : Prop :=
  ∀ r r' i j p q, i < n r → j < n' r' →
    F' [offset n r + i, offset n' r' + j] p q = if r = r' then F r [i, j] p q else 0

/-- Optional contents: absent in all branches and in the result, or present in all and related. -/
def OptBlocks (R : (Fin m → List ℕ → List ℕ → List ℕ → α) → (List ℕ → List ℕ → List ℕ → α) → Prop)
    (F : Fin m → Option (List ℕ → List ℕ → List ℕ → α)) (F' : Option (List ℕ → List ℕ → List ℕ → α)) :
    Prop :=
  ((∀ r, F r = none) ∧ F' = none) ∨ ∃ G G', (∀ r, F r = some (G r)) ∧ F' = some G' ∧ R G G'

/-- `L'` is the content of the concatenation along the spatial axis `s` of branches with contents `L r`
that are uncorrelated with each other. -/
structure SpatialConcat [Zero α] (s : ℕ) (L : Fin (m + 1) → Logical α) (L' : Logical α) : Prop where
  n1 : L'.n1 = (L 0).n1
  n2 : L'.n2 = (L 0).n2
  S1 : L'.S1 = (L 0).S1.set s (∑ r, (L r).S1.getD s 0)
  S2 : L'.S2 = (L 0).S2.set s (∑ r, (L r).S2.getD s 0)
  k12 : SpatialBlocks s (fun r => (L r).S1) (fun r => (L r).S2) (fun r => (L r).k12) L'.k12
  k11 : SpatialBlocks s (fun r => (L r).S1) (fun r => (L r).S1) (fun r => (L r).k11) L'.k11
  k22 : OptBlocks (SpatialBlocks s (fun r => (L r).S2) fun r => (L r).S2) (fun r => (L r).k22) L'.k22
  ntk : OptBlocks (SpatialBlocks s (fun r => (L r).S1) fun r => (L r).S2) (fun r => (L r).ntk) L'.ntk

/-- `L'` is the content of the concatenation along the batch of branches with contents `L r` that are
uncorrelated with each other. -/
structure BatchConcat [Zero α] (L : Fin (m + 1) → Logical α) (L' : Logical α) : Prop where
  n1 : L'.n1 = ∑ r, (L r).n1
  n2 : L'.n2 = ∑ r, (L r).n2
  S1 : L'.S1 = (L 0).S1
  S2 : L'.S2 = (L 0).S2
  k12 : BatchBlocks (fun r => (L r).n1) (fun r => (L r).n2) (fun r => (L r).k12) L'.k12
  k11 : BatchBlocks (fun r => (L r).n1) (fun r => (L r).n1) (fun r => (L r).k11) L'.k11
  k22 : OptBlocks (BatchBlocks (fun r => (L r).n2) fun r => (L r).n2) (fun r => (L r).k22) L'.k22
  ntk : OptBlocks (BatchBlocks (fun r => (L r).n1) fun r => (L r).n2) (fun r => (L r).ntk) L'.ntk

end NT.Spec
