import Mathlib.Probability.Distributions.Gaussian.Basic

/-!
# Centred Gaussian pairs

The law of two jointly Gaussian variables of mean zero with variances `q11`, `q22` and covariance `q12`.
-/

namespace NT.Spec
open MeasureTheory ProbabilityTheory

/-- `P` is the law of a centred Gaussian pair with the given covariances. -/
structure GaussPair (P : Measure (ℝ × ℝ)) (q11 q12 q22 : ℝ) : Prop where
  gaussian : IsGaussian P
  mean1 : ∫ x, x.1 ∂P = 0
  mean2 : ∫ x, x.2 ∂P = 0
  var1 : ∫ x, x.1 ^ 2 ∂P = q11
  cov : ∫ x, x.1 * x.2 ∂P = q12
  var2 : ∫ x, x.2 ^ 2 ∂P = q22

end NT.Spec
