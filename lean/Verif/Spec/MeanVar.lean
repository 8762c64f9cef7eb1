import Verif.Spec.Box
import Mathlib.Data.Real.Basic
import Mathlib.Algebra.BigOperators.Group.Finset.Basic

/-!
# Specification of means and variances over the axes of an array
-/

namespace NT.Spec
open scoped BigOperators

/-- The entries of an array of shape `s` that differ from entry `i` only along the axes `A`. -/
def line (s : List ℕ) (A : Finset ℕ) (i : List ℕ) : Finset (List ℕ) :=
  (box s).filter fun j => ∀ a, a < s.length → a ∉ A → j.getD a 0 = i.getD a 0

/-- The entries among them that are not masked. -/
def unmasked (s : List ℕ) (A : Finset ℕ) (m : List ℕ → Bool) (i : List ℕ) : Finset (List ℕ) := (line s A i).filter fun j => m j = false

/-- The mean of `f` over a finite set of entries. -/
noncomputable def meanOver (U : Finset (List ℕ)) (f : List ℕ → ℝ) : ℝ := (∑ j ∈ U, f j) / U.card

/-- The variance of `f` over a finite set of entries. -/
noncomputable def varOver (U : Finset (List ℕ)) (f : List ℕ → ℝ) : ℝ := (∑ j ∈ U, (f j - meanOver U f) ^ 2) / U.card

end NT.Spec
