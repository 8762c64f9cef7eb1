import Verif.Model.Arr
import Mathlib.Algebra.BigOperators.Group.Finset.Basic

/-!
# The set of positions of an array
-/

namespace NT.Spec

/-- All multi-indices that are in range for the shape `s`. -/
def box (s : List ℕ) : Finset (List ℕ) := (Arr.indices s).toFinset

example : box [2, 1] = {[0, 0], [1, 0]} := by decide

end NT.Spec
