import Verif.Spec.Layout
import Mathlib.Algebra.BigOperators.Group.Finset.Basic
import Verif.Spec.Box
import Mathlib.Data.Real.Basic

/-!
# Positive semidefinite kernels

The covariances of one batch of inputs with itself, as a matrix with a row for each example and position.
-/

namespace NT.Spec
open NT

/-- The matrix with entries `F [i, j] p q`, whose rows are the pairs of an example `i < n` and a position `p` of the spatial shape `S`, is
symmetric and positive semidefinite. -/
structure PsdOn (n : ℕ) (S : List ℕ) (F : List ℕ → List ℕ → List ℕ → ℝ) : Prop where
  symm : ∀ i j p q, i < n → j < n → InRange p S → InRange q S → F [i, j] p q = F [j, i] q p
  nonneg : ∀ c : ℕ → List ℕ → ℝ,
    0 ≤ ∑ i ∈ Finset.range n, ∑ p ∈ box S, ∑ j ∈ Finset.range n, ∑ q ∈ box S, c i p * c j q * F [i, j] p q

/-- The information of a kernel of one batch with itself is positive semidefinite: the covariance, which is also that of the first
input, and the tangent kernel if there is one. -/
structure PsdKernel (L : Logical ℝ) : Prop where
  one : L.k22 = none
  batch : L.n2 = L.n1
  shape : L.S2 = L.S1
  cov1 : ∀ i j p q, i < L.n1 → j < L.n1 → InRange p L.S1 → InRange q L.S1 → L.k11 [i, j] p q = L.k12 [i, j] p q
  nngp : PsdOn L.n1 L.S1 L.k12
  ntk : ∀ F, L.ntk = some F → PsdOn L.n1 L.S1 F

/-- The array `a`, in the layout given by the flags, is symmetric and positive semidefinite as a matrix over the examples and positions (only
entries of equal positions are there if `ds`; the others count as zero). -/
def PsdArr (ds rev : Bool) (a : Arr ℝ) : Prop :=
  ∃ n S, a.shape = n :: n :: pos ds rev S S ∧
    (∀ i j p q, i < n → j < n → InRange p S → InRange q S → (ds = true → p = q) →
      a.get (i :: j :: pos ds rev p q) = a.get (j :: i :: pos ds rev q p)) ∧
    ∀ c : ℕ → List ℕ → ℝ, 0 ≤ ∑ i ∈ Finset.range n, ∑ p ∈ box S, ∑ j ∈ Finset.range n, ∑ q ∈ box S,
      if ds = true → p = q then c i p * c j q * a.get (i :: j :: pos ds rev p q) else 0

/-- The `nngp` and `ntk` of the kernel are positive semidefinite. -/
def PsdOut (k : Kernel ℝ) : Prop :=
  PsdArr k.diagonalSpatial k.isReversed k.nngp ∧
    ∀ a, k.ntk = some a → (a.shape = [] ∧ a.get [] = 0) ∨ PsdArr k.diagonalSpatial k.isReversed a

end NT.Spec
