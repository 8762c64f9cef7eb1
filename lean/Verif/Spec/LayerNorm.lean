import Verif.Spec.Dual
import Verif.Spec.Box
import Mathlib.Data.Real.Basic
import Mathlib.Analysis.Real.Sqrt
import Mathlib.Algebra.BigOperators.Group.Finset.Basic

/-!
# Specification of `LayerNorm`
-/

namespace NT.Spec
open scoped BigOperators

/-- The examples and positions whose variances are averaged for example `i` and position `p`: those that differ from it only in the
normalised axes (`A`, positions among the spatial axes, and the batch axis if `batch`). -/
noncomputable def group (n : ℕ) (S : List ℕ) (batch : Bool) (A : ℕ → Prop) (i : ℕ) (p : List ℕ) : Finset (ℕ × List ℕ) :=
  open Classical in
  (Finset.range n ×ˢ box S).filter fun x => (batch = false → x.1 = i) ∧ ∀ j, j < S.length → ¬ A j → x.2.getD j 0 = p.getD j 0

/-- The mean of `f` over the group of `i` and `p`. -/
noncomputable def groupMean (n : ℕ) (S : List ℕ) (batch : Bool) (A : ℕ → Prop) (f : ℕ → List ℕ → ℝ) (i : ℕ) (p : List ℕ) : ℝ :=
  (∑ x ∈ group n S batch A i p, f x.1 x.2) / (group n S batch A i p).card

/-- The axes of an `n`-dimensional activation that are neither the batch axis nor the channel axis, in increasing order. -/
def spatialAxes (n ba ca : ℕ) : List ℕ := (List.range n).filter fun a => a ≠ ba ∧ a ≠ ca

/-- Every covariance is divided by the geometric mean of the (group means of the) variances plus `eps`. -/
noncomputable def normalised (L : Logical ℝ) (eps : ℝ) (batch : Bool) (A : ℕ → Prop) : Logical ℝ :=
  let v1 := groupMean L.n1 L.S1 batch A fun i p => eps + L.k11 [i, i] p p
  let v2 := groupMean L.n2 L.S2 batch A fun i p => eps + L.second [i, i] p p
  { n1 := L.n1, n2 := L.n2, S1 := L.S1, S2 := L.S2
    k12 := fun b p q => L.k12 b p q / √(v1 (b.getD 0 0) p * v2 (b.getD 1 0) q)
    k11 := fun b p q => L.k11 b p q / √(v1 (b.getD 0 0) p * v1 (b.getD 1 0) q)
    k22 := L.k22.map fun F b p q => F b p q / √(v2 (b.getD 0 0) p * v2 (b.getD 1 0) q)
    ntk := L.ntk.map fun F b p q => F b p q / √(v1 (b.getD 0 0) p * v2 (b.getD 1 0) q) }

end NT.Spec
