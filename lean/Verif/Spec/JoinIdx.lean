import Verif.Spec.Box
import Verif.Spec.Interleave
import Mathlib.LinearAlgebra.Matrix.Defs
import Mathlib.Data.Real.Basic

/-!
# Splitting the axes of an array into two groups
-/

namespace NT.Spec

/-- The axes below `n` that are not in `D`, in increasing order. -/
def otherAxes (n : ℕ) (D : List ℕ) : List ℕ := (List.range n).filter fun k => k ∉ D

/-- The multi-index with the coordinates `r` at the axes `D` and the coordinates `p` at the other axes. -/
def joinIdx (n : ℕ) (D : List ℕ) (p r : List ℕ) : List ℕ :=
  (List.range n).map fun k => if k ∈ D then r.getD (D.idxOf k) 0 else p.getD ((otherAxes n D).idxOf k) 0

example : joinIdx 4 [3, 1] [10, 20] [7, 8] = [10, 8, 20, 7] := by decide

/-- The sizes of the axes `D`. -/
def sizesAt (D : List ℕ) (s : List ℕ) : List ℕ := D.map fun k => s.getD k 0

/-- The matrix of an array of rank `n` (after leading coordinates `t`) with the axes `D`, of sizes `R`, as columns and the other
axes, of sizes `S`, as rows. -/
def viewAt (t : List ℕ) (n : ℕ) (D S R : List ℕ) (a : Arr ℝ) : Matrix (box S) (box R) ℝ :=
  fun p r => a.get (t ++ joinIdx n D p.1 r.1)

/-- The matrix of an array with paired axes. -/
def pairMat (A B : List ℕ) (a : Arr ℝ) : Matrix (box A) (box B) ℝ := fun p q => a.get (interleave p.1 q.1)

end NT.Spec
