import Verif.Spec.Predict
import Verif.Model.Gp
import Mathlib.Probability.Distributions.Gaussian.HasGaussianLaw.Independence

/-!
# Specification of Gaussian process inference
-/

namespace NT.Spec
open Matrix NT.Predict MeasureTheory ProbabilityTheory

variable {Ω : Type} [MeasurableSpace Ω] {ι κ : Type} [Fintype ι] [Fintype κ]

/-- `u` (noisy training outputs) and `v` (test outputs) are centred and jointly Gaussian with covariances `K`, `K'`, `K''`. -/
structure JointGaussian (P : Measure Ω) (u : ι → Ω → ℝ) (v : κ → Ω → ℝ) (K : Matrix ι ι ℝ) (K' : Matrix κ ι ℝ) (K'' : Matrix κ κ ℝ) :
    Prop where
  gauss : HasGaussianLaw (fun ω => (fun i => u i ω, fun j => v j ω)) P
  mean_u : ∀ i, ∫ ω, u i ω ∂P = 0
  mean_v : ∀ j, ∫ ω, v j ω ∂P = 0
  cov_uu : ∀ i i', cov[u i, u i'; P] = K i i'
  cov_vu : ∀ j i, cov[v j, u i; P] = K' j i
  cov_vv : ∀ j j', cov[v j, v j'; P] = K'' j j'

/-- The conditional distribution of `v` given `u = y` is the Gaussian with mean `M y` and covariance `C`: the residual `v - M u` is
Gaussian, centred, has covariance `C` and is independent of `u`. -/
structure Conditional (P : Measure Ω) (u : ι → Ω → ℝ) (v : κ → Ω → ℝ) (M : (ι → ℝ) → κ → ℝ) (C : Matrix κ κ ℝ) : Prop where
  gauss : HasGaussianLaw (fun ω j => v j ω - M (fun i => u i ω) j) P
  mean : ∀ j, ∫ ω, (v j ω - M (fun i => u i ω) j) ∂P = 0
  cov : ∀ j j', cov[fun ω => v j ω - M (fun i => u i ω) j, fun ω => v j' ω - M (fun i => u i ω) j'; P] = C j j'
  indep : IndepFun (fun ω j => v j ω - M (fun i => u i ω) j) (fun ω i => u i ω) P

/-- The arguments of `gp_inference` fit together: `kdd` is the train-train kernel of the mode, with non-trace sizes `S` and trace sizes
`R` at the axes `T` of the targets.  The last condition says that the set of even axes is iterated in increasing order. -/
structure _root_.NT.Predict.Gp.Fits (bk : Backend) (m : Gp) (g : Mode) (T S R : List ℕ) (kdd : Arr ℝ) : Prop where
  axes : axesOf bk m.traceAxes m.yTrain.ndim = .ok T
  rows : S = sizesAt (otherAxes m.yTrain.ndim T) m.yTrain.shape
  cols : R = sizesAt T m.yTrain.shape
  nonempty : m.yTrain.shape.prod ≠ 0
  field : m.kTrainTrain.attr g.field = .ok (some kdd)
  kernel : kdd.shape = interleave S S
  rank : ∃ k, m.kTrainTrain.first = .ok k ∧ k.ndim = 2 * S.length
  order : bk.setIter (pyRange 0 (2 * S.length) 2).toFinset = pyRange 0 (2 * S.length) 2

/-- The test kernels fit: the test outputs have the shape `s'`, with non-trace sizes `S'`. -/
structure _root_.NT.Predict.Gp.TestFits (m : Gp) (T S R : List ℕ) (ktd : Arr ℝ) (s' S' : List ℕ) : Prop where
  rank : s'.length = m.yTrain.ndim
  rows : S' = sizesAt (otherAxes m.yTrain.ndim T) s'
  cols : R = sizesAt T s'
  kernel : ktd.shape = interleave S' S

end NT.Spec
