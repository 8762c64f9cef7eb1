import Mathlib.Analysis.Calculus.Gradient.Basic
import Mathlib.MeasureTheory.Function.L2Space
import Verif.Spec.Layout

/-!
# The kernels of a random function

`f1 i p θ` is the output at position `p` for example `i` of the first inputs with parameters `θ`, `f2`
the same for the second inputs.  Parameters are drawn from the measure `μ`.
-/

namespace NT.Spec
open MeasureTheory

variable {E : Type} [NormedAddCommGroup E] [InnerProductSpace ℝ E] [CompleteSpace E]
  [MeasurableSpace E]

/-- `E[f g]`. -/
noncomputable def secondMoment (μ : Measure E) (f g : E → ℝ) : ℝ := ∫ θ, f θ * g θ ∂μ

/-- `E[⟨∇f, ∇g⟩]`. -/
noncomputable def tangent (μ : Measure E) (f g : E → ℝ) : ℝ :=
  ∫ θ, inner ℝ (gradient f θ) (gradient g θ) ∂μ

/-- `L` is the NNGP and tangent kernel of the random functions `f1`, `f2`. -/
structure KernelOf (μ : Measure E) (f1 f2 : ℕ → List ℕ → E → ℝ) (L : Logical ℝ) : Prop where
  k12 : ∀ i j p q, i < L.n1 → j < L.n2 → InRange p L.S1 → InRange q L.S2 →
    L.k12 [i, j] p q = secondMoment μ (f1 i p) (f2 j q)
  k11 : ∀ i j p q, i < L.n1 → j < L.n1 → InRange p L.S1 → InRange q L.S1 →
    L.k11 [i, j] p q = secondMoment μ (f1 i p) (f1 j q)
  k22 : ∀ F, L.k22 = some F → ∀ i j p q, i < L.n2 → j < L.n2 → InRange p L.S2 → InRange q L.S2 →
    F [i, j] p q = secondMoment μ (f2 i p) (f2 j q)
  ntk : ∀ F, L.ntk = some F → ∀ i j p q, i < L.n1 → j < L.n2 → InRange p L.S1 → InRange q L.S2 →
    F [i, j] p q = tangent μ (f1 i p) (f2 j q)

end NT.Spec
