import Verif.Spec.Posterior
import Verif.Model.Ensemble

/-!
# Specification of the ensemble predictor
-/

namespace NT.Spec
open Matrix NT.Predict MeasureTheory ProbabilityTheory

/-- The arguments fit together: `T` are the trace axes, `R` their sizes in the targets, `S` the sizes of the other axes, and both
kernels have the shape `zip(S, S)`; the set of even axes is iterated in increasing order. -/
structure _root_.NT.Predict.Ens.Fits (bk : Backend) (m : Ens) (T S R : List ℕ) : Prop where
  axes : axesOf bk m.traceAxes m.yTrain.ndim = .ok T
  rows : S = sizesAt (otherAxes m.yTrain.ndim T) m.yTrain.shape
  cols : R = sizesAt T m.yTrain.shape
  nonempty : m.yTrain.shape.prod ≠ 0
  kernel : ∀ g, (m.kdd g).shape = interleave S S
  order : bk.setIter (pyRange 0 (2 * S.length) 2).toFinset = pyRange 0 (2 * S.length) 2

/-- The kernels of the test set fit: the test outputs have the shape `s'`, with non-trace sizes `S'`. -/
structure _root_.NT.Predict.Ens.TestFits (m : Ens) (T S R : List ℕ) (x : TestSet) (s' S' : List ℕ) : Prop where
  rank : s'.length = m.yTrain.ndim
  rows : S' = sizesAt (otherAxes m.yTrain.ndim T) s'
  cols : R = sizesAt T s'
  kernel : ∀ g, (x.ktd g).shape = interleave S' S
  test : x.ktt.shape = interleave S' S'

/-- The returned covariance holds, at the times `t`, the matrices `C`. -/
def CovIs (o : Option (Arr ℝ)) (t : Arr ℝ) (S : List ℕ) (C : ℝ → Matrix (box S) (box S) ℝ) : Prop :=
  ∃ a, o = some a ∧ a.shape = t.shape ++ interleave S S ∧
    ∀ tj, InRange tj t.shape → ∀ p q : box S, a.get (tj ++ interleave p.1 q.1) = C (t.get tj) p q

/-- Random outputs `u` at the training points and `v` at the test points, one column for each trace coordinate: square integrable,
centred, every column with the covariances `K`, `K'`, `K''`. -/
structure RandomInit {Ω : Type} [MeasurableSpace Ω] {ι ι' κ : Type} (P : Measure Ω) (u : Ω → Matrix ι κ ℝ) (v : Ω → Matrix ι' κ ℝ)
    (K : Matrix ι ι ℝ) (K' : Matrix ι' ι ℝ) (K'' : Matrix ι' ι' ℝ) : Prop where
  memLp_u : ∀ i r, MemLp (fun ω => u ω i r) 2 P
  memLp_v : ∀ j r, MemLp (fun ω => v ω j r) 2 P
  mean_u : ∀ i r, ∫ ω, u ω i r ∂P = 0
  mean_v : ∀ j r, ∫ ω, v ω j r ∂P = 0
  cov_uu : ∀ i i' r, cov[fun ω => u ω i r, fun ω => u ω i' r; P] = K i i'
  cov_vu : ∀ j i r, cov[fun ω => v ω j r, fun ω => u ω i r; P] = K' j i
  cov_vv : ∀ j j' r, cov[fun ω => v ω j r, fun ω => v ω j' r; P] = K'' j j'

end NT.Spec
