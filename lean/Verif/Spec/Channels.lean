import Verif.Spec.RandomFn
import Mathlib.Analysis.InnerProductSpace.ProdL2
import Mathlib.Analysis.InnerProductSpace.PiL2
import Mathlib.Analysis.Normed.Lp.MeasurableSpace
import Mathlib.MeasureTheory.Integral.Prod

/-!
# Kernels of random functions with channels, and layers with fresh random parameters

`f1 i c p θ` is channel `c` of the output at position `p` for example `i`.
-/

namespace NT.Spec
open MeasureTheory

variable {E : Type} [NormedAddCommGroup E] [InnerProductSpace ℝ E] [CompleteSpace E] [MeasurableSpace E]

/-- `L` holds the averages over the `C` channels of the second moments and tangent kernels of the random
functions `f1`, `f2`. -/
structure ChannelKernelOf (μ : Measure E) (C : ℕ) (f1 f2 : ℕ → ℕ → List ℕ → E → ℝ) (L : Logical ℝ) : Prop where
  k12 : ∀ i j p q, i < L.n1 → j < L.n2 → InRange p L.S1 → InRange q L.S2 →
    L.k12 [i, j] p q = (∑ c ∈ Finset.range C, secondMoment μ (f1 i c p) (f2 j c q)) / C
  k11 : ∀ i j p q, i < L.n1 → j < L.n1 → InRange p L.S1 → InRange q L.S1 →
    L.k11 [i, j] p q = (∑ c ∈ Finset.range C, secondMoment μ (f1 i c p) (f1 j c q)) / C
  k22 : ∀ F, L.k22 = some F → ∀ i j p q, i < L.n2 → j < L.n2 → InRange p L.S2 → InRange q L.S2 →
    F [i, j] p q = (∑ c ∈ Finset.range C, secondMoment μ (f2 i c p) (f2 j c q)) / C
  ntk : ∀ F, L.ntk = some F → ∀ i j p q, i < L.n1 → j < L.n2 → InRange p L.S1 → InRange q L.S2 →
    F [i, j] p q = (∑ c ∈ Finset.range C, tangent μ (f1 i c p) (f2 j c q)) / C

/-- The space of the parameters `θ` of a network and the parameters `w` (indexed by `ι`) of a further
layer. -/
abbrev Ext (E ι : Type) [NormedAddCommGroup E] [Fintype ι] : Type := WithLp 2 (E × EuclideanSpace ℝ ι)

/-- Independent draws of `θ` and `w`. -/
noncomputable def extMeasure {ι : Type} [Fintype ι] (μ : Measure E) (ν : Measure (EuclideanSpace ℝ ι)) :
    Measure (Ext E ι) := (μ.prod ν).map (WithLp.toLp 2)

/-- The parameters `w` are uncorrelated with zero mean (not needed separately) and variances `v`. -/
structure Uncorrelated {ι : Type} [Fintype ι] (ν : Measure (EuclideanSpace ℝ ι)) (v : ι → ℝ) : Prop where
  prob : IsProbabilityMeasure ν
  memLp : ∀ k, MemLp (fun w : EuclideanSpace ℝ ι => w k) 2 ν
  var : ∀ k, ∫ w, w k * w k ∂ν = v k
  cov : ∀ k l, k ≠ l → ∫ w, w k * w l ∂ν = 0

end NT.Spec
