import Verif.Lemmas.RandomLinear
import Verif.Lemmas.Layout
import Verif.Spec.Act
import Mathlib.Probability.Distributions.Gaussian.Multivariate

/-!
# Networks with channels
-/

set_option linter.unusedSectionVars false

namespace NT
open MeasureTheory Spec

variable {E : Type} [NormedAddCommGroup E] [InnerProductSpace ℝ E] [CompleteSpace E] [MeasurableSpace E]

/-- The channels of the array-valued random function `X` with batch axis `ba` and channel axis `ca`. -/
def chan (X : E → Arr ℝ) (ba ca : ℕ) (i c : ℕ) (p : List ℕ) (θ : E) : ℝ := (X θ).get (actIdx ba ca i c p)

/-- Regularity of a pair of random functions with `C` channels: square integrable, almost surely
differentiable in the parameters, with integrable products of gradients. -/
structure Regular (μ : Measure E) (C n1 n2 : ℕ) (S1 S2 : List ℕ) (f1 f2 : ℕ → ℕ → List ℕ → E → ℝ) : Prop where
  sq1 : ∀ i < n1, ∀ c < C, ∀ p, InRange p S1 → MemLp (f1 i c p) 2 μ
  sq2 : ∀ i < n2, ∀ c < C, ∀ p, InRange p S2 → MemLp (f2 i c p) 2 μ
  diff1 : ∀ i < n1, ∀ c < C, ∀ p, InRange p S1 → ∀ᵐ θ ∂μ, DifferentiableAt ℝ (f1 i c p) θ
  diff2 : ∀ i < n2, ∀ c < C, ∀ p, InRange p S2 → ∀ᵐ θ ∂μ, DifferentiableAt ℝ (f2 i c p) θ
  grad : ∀ i < n1, ∀ j < n2, ∀ c < C, ∀ c' < C, ∀ p q, InRange p S1 → InRange q S2 →
    Integrable (fun θ => inner ℝ (gradient (f1 i c p) θ) (gradient (f2 j c' q) θ)) μ

/-- If all channels have the same kernels, these are the averages over the channels. -/
lemma channelKernelOf_of_each (μ : Measure E) (D : ℕ) (hD : 0 < D) (f1 f2 : ℕ → ℕ → List ℕ → E → ℝ) (L : Logical ℝ)
    (h : ∀ o < D, KernelOf μ (fun i p => f1 i o p) (fun i p => f2 i o p) L) : ChannelKernelOf μ D f1 f2 L := by
  have avg : ∀ (F : ℕ → ℝ) (v : ℝ), (∀ o < D, v = F o) → v = (∑ c ∈ Finset.range D, F c) / D := by
    intro F v hF
    rw [Finset.sum_congr rfl fun c hc => (hF c (Finset.mem_range.1 hc)).symm]
    have : (D : ℝ) ≠ 0 := by positivity
    simp [this]
  refine ⟨?_, ?_, ?_, ?_⟩
  · exact fun i j p q hi hj hp hq => avg _ _ fun o ho => (h o ho).k12 i j p q hi hj hp hq
  · exact fun i j p q hi hj hp hq => avg _ _ fun o ho => (h o ho).k11 i j p q hi hj hp hq
  · exact fun F hF i j p q hi hj hp hq => avg _ _ fun o ho => (h o ho).k22 F hF i j p q hi hj hp hq
  · exact fun F hF i j p q hi hj hp hq => avg _ _ fun o ho => (h o ho).ntk F hF i j p q hi hj hp hq

lemma _root_.NT.Spec.ChannelKernelOf.congr {μ : Measure E} {C : ℕ} {f1 f2 g1 g2 : ℕ → ℕ → List ℕ → E → ℝ} {L : Logical ℝ}
    (h : ChannelKernelOf μ C f1 f2 L) (h1 : ∀ i < L.n1, ∀ c < C, ∀ p, InRange p L.S1 → f1 i c p = g1 i c p)
    (h2 : ∀ i < L.n2, ∀ c < C, ∀ p, InRange p L.S2 → f2 i c p = g2 i c p) : ChannelKernelOf μ C g1 g2 L where
  k12 i j p q hi hj hp hq := by
    rw [h.k12 i j p q hi hj hp hq]
    congr 1
    refine Finset.sum_congr rfl fun c hc => ?_
    rw [Finset.mem_range] at hc
    rw [h1 i hi c hc p hp, h2 j hj c hc q hq]
  k11 i j p q hi hj hp hq := by
    rw [h.k11 i j p q hi hj hp hq]
    congr 1
    refine Finset.sum_congr rfl fun c hc => ?_
    rw [Finset.mem_range] at hc
    rw [h1 i hi c hc p hp, h1 j hj c hc q hq]
  k22 F hF i j p q hi hj hp hq := by
    rw [h.k22 F hF i j p q hi hj hp hq]
    congr 1
    refine Finset.sum_congr rfl fun c hc => ?_
    rw [Finset.mem_range] at hc
    rw [h2 i hi c hc p hp, h2 j hj c hc q hq]
  ntk F hF i j p q hi hj hp hq := by
    rw [h.ntk F hF i j p q hi hj hp hq]
    congr 1
    refine Finset.sum_congr rfl fun c hc => ?_
    rw [Finset.mem_range] at hc
    rw [h1 i hi c hc p hp, h2 j hj c hc q hq]

/-- Gaussian vectors with independent coordinates are uncorrelated with the given variances. -/
lemma exists_uncorrelated (ι : Type) [Fintype ι] [DecidableEq ι] (v : ι → ℝ) (hv : ∀ k, 0 ≤ v k) :
    ∃ ν : Measure (EuclideanSpace ℝ ι), Uncorrelated ν v := by
  have hS : (Matrix.diagonal v).PosSemidef := Matrix.PosSemidef.diagonal hv
  have hL : ∀ k, MemLp (fun w : EuclideanSpace ℝ ι => w k) 2
      (ProbabilityTheory.multivariateGaussian 0 (Matrix.diagonal v)) := fun k =>
    (ProbabilityTheory.memLp_id_gaussianReal' 2 (by norm_num)).comp_measurePreserving
      (ProbabilityTheory.measurePreserving_eval_multivariateGaussian hS)
  have h0 : ∀ k, ∫ w, w k ∂(ProbabilityTheory.multivariateGaussian 0 (Matrix.diagonal v)) = 0 := by
    intro k
    have := (ProbabilityTheory.measurePreserving_eval_multivariateGaussian (μ := 0) hS (i := k)).map_eq
    have h2 := integral_map (f := fun x : ℝ => x) (μ := ProbabilityTheory.multivariateGaussian 0 (Matrix.diagonal v))
      (φ := fun w : EuclideanSpace ℝ ι => w k) (by fun_prop) (by fun_prop)
    rw [← h2, this]
    exact ProbabilityTheory.integral_id_gaussianReal
  have hc : ∀ k l, ∫ w, w k * w l ∂(ProbabilityTheory.multivariateGaussian 0 (Matrix.diagonal v)) =
      Matrix.diagonal v k l := by
    intro k l
    have := ProbabilityTheory.covariance_eval_multivariateGaussian (μ := 0) hS k l
    rw [ProbabilityTheory.covariance_eq_sub (hL k) (hL l)] at this
    rw [← this, h0 k, h0 l]
    simp
  refine ⟨_, inferInstance, hL, ?_, ?_⟩
  · intro k; rw [hc]; simp
  · intro k l h; rw [hc]; simp [h]

section ExampleNetwork
open ProbabilityTheory

/-- The network `a θ` with one standard normal parameter. -/
noncomputable def lin1 (a : ℕ → ℕ → List ℕ → ℝ) (i c : ℕ) (p : List ℕ) (θ : ℝ) : ℝ := a i c p * θ

lemma lin1_grad (a : ℕ → ℕ → List ℕ → ℝ) (i c : ℕ) (p : List ℕ) (θ : ℝ) : gradient (lin1 a i c p) θ = a i c p := by
  have := (((hasDerivAt_id' θ).const_mul (a i c p))).hasGradientAt'.gradient
  simp only [mul_one] at this
  exact this

lemma lin1_regular (C n1 n2 : ℕ) (S1 S2 : List ℕ) (a b : ℕ → ℕ → List ℕ → ℝ) :
    Regular (gaussianReal 0 1) C n1 n2 S1 S2 (lin1 a) (lin1 b) where
  sq1 _ _ _ _ _ _ := (memLp_id_gaussianReal 2).const_mul _
  sq2 _ _ _ _ _ _ := (memLp_id_gaussianReal 2).const_mul _
  diff1 _ _ _ _ _ _ := Filter.Eventually.of_forall fun θ => by unfold lin1; fun_prop
  diff2 _ _ _ _ _ _ := Filter.Eventually.of_forall fun θ => by unfold lin1; fun_prop
  grad _ _ _ _ _ _ _ _ _ _ _ _ := by simp only [lin1_grad]; exact integrable_const _

lemma lin1_moment (a b : ℕ → ℕ → List ℕ → ℝ) (i j c c' : ℕ) (p q : List ℕ) :
    secondMoment (gaussianReal 0 1) (lin1 a i c p) (lin1 b j c' q) = a i c p * b j c' q := by
  have h := variance_fun_id_gaussianReal (μ := 0) (v := 1)
  rw [variance_eq_integral measurable_id'.aemeasurable] at h
  simp at h
  unfold secondMoment lin1
  have e : ∀ θ : ℝ, a i c p * θ * (b j c' q * θ) = (a i c p * b j c' q) * θ ^ 2 := fun θ => by ring
  simp only [e]
  rw [integral_const_mul, h, mul_one]

lemma lin1_tangent (a b : ℕ → ℕ → List ℕ → ℝ) (i j c c' : ℕ) (p q : List ℕ) :
    tangent (gaussianReal 0 1) (lin1 a i c p) (lin1 b j c' q) = a i c p * b j c' q := by
  unfold tangent
  simp only [lin1_grad]
  simp [mul_comm]

/-- The kernel of this network with `C` channels. -/
noncomputable def lin1L (C : ℕ) (a b : ℕ → ℕ → List ℕ → ℝ) (n1 n2 : ℕ) (S1 S2 : List ℕ) : Logical ℝ where
  n1 := n1
  n2 := n2
  S1 := S1
  S2 := S2
  k12 := fun x p q => (∑ c ∈ Finset.range C, a (x.getD 0 0) c p * b (x.getD 1 0) c q) / C
  k11 := fun x p q => (∑ c ∈ Finset.range C, a (x.getD 0 0) c p * a (x.getD 1 0) c q) / C
  k22 := some fun x p q => (∑ c ∈ Finset.range C, b (x.getD 0 0) c p * b (x.getD 1 0) c q) / C
  ntk := some fun x p q => (∑ c ∈ Finset.range C, a (x.getD 0 0) c p * b (x.getD 1 0) c q) / C

lemma lin1_kernel (C : ℕ) (a b : ℕ → ℕ → List ℕ → ℝ) (n1 n2 : ℕ) (S1 S2 : List ℕ) :
    ChannelKernelOf (gaussianReal 0 1) C (lin1 a) (lin1 b) (lin1L C a b n1 n2 S1 S2) where
  k12 i j p q _ _ _ _ := by simp only [lin1_moment]; rfl
  k11 i j p q _ _ _ _ := by simp only [lin1_moment]; rfl
  k22 F hF i j p q _ _ _ _ := by
    simp only [lin1L, Option.some.injEq] at hF
    subst hF
    simp only [lin1_moment]; rfl
  ntk F hF i j p q _ _ _ _ := by
    simp only [lin1L, Option.some.injEq] at hF
    subst hF
    simp only [lin1_tangent]; rfl

end ExampleNetwork

end NT
