import Verif.Spec.Channels
import Verif.Tac

/-!
# A random linear layer on top of a random function
-/

set_option linter.unusedSectionVars false

namespace NT
open MeasureTheory Spec

variable {E : Type} [NormedAddCommGroup E] [InnerProductSpace ℝ E] [CompleteSpace E] [MeasurableSpace E]
variable {ι : Type} [Fintype ι]

/-- The layer `z(θ, w) = ∑ₖ wₖ gₖ(θ)`. -/
noncomputable def linOut (g : ι → E → ℝ) (x : Ext E ι) : ℝ := ∑ k, x.snd k * g k x.fst

lemma linOut_hasGradientAt (g : ι → E → ℝ) (θ : E) (w : EuclideanSpace ℝ ι) (hg : ∀ k, DifferentiableAt ℝ (g k) θ) :
    HasGradientAt (linOut g) (WithLp.toLp 2 (∑ k, w k • gradient (g k) θ, WithLp.toLp 2 fun k => g k θ))
      (WithLp.toLp 2 (θ, w) : Ext E ι) := by
  rw [hasGradientAt_iff_hasFDerivAt]
  have h1 : ∀ k, HasFDerivAt (fun x : Ext E ι => g k x.fst)
      ((fderiv ℝ (g k) θ).comp (WithLp.fstL 2 ℝ E (EuclideanSpace ℝ ι))) (WithLp.toLp 2 (θ, w) : Ext E ι) := by
    intro k
    exact HasFDerivAt.comp (WithLp.toLp 2 (θ, w) : Ext E ι) (hg k).hasFDerivAt
      (WithLp.fstL 2 ℝ E (EuclideanSpace ℝ ι)).hasFDerivAt
  have h2 : ∀ k, HasFDerivAt (fun x : Ext E ι => x.snd k)
      ((EuclideanSpace.proj k).comp (WithLp.sndL 2 ℝ E (EuclideanSpace ℝ ι))) (WithLp.toLp 2 (θ, w) : Ext E ι) := by
    intro k
    exact ((EuclideanSpace.proj (𝕜 := ℝ) k).comp (WithLp.sndL 2 ℝ E (EuclideanSpace ℝ ι))).hasFDerivAt
  have h3 := HasFDerivAt.fun_sum (u := Finset.univ) fun k _ => (h2 k).mul (h1 k)
  refine h3.congr_fderiv ?_
  ext x
  simp only [sum_apply, add_apply, smul_apply,
    InnerProductSpace.toDual_apply_apply, WithLp.prod_inner_apply, ContinuousLinearMap.comp_apply]
  rw [Finset.sum_add_distrib, sum_inner]
  congr 1
  · refine Finset.sum_congr rfl fun k _ => ?_
    rw [real_inner_smul_left]
    congr 1
    rw [inner_gradient_left]
    rfl
  · rw [EuclideanSpace.inner_eq_star_dotProduct]
    simp only [dotProduct, smul_eq_mul]
    refine Finset.sum_congr rfl fun k _ => ?_
    simp [mul_comm]

section Integrals
variable (μ : Measure E) (ν : Measure (EuclideanSpace ℝ ι)) (v : ι → ℝ)

lemma integral_ext (f : Ext E ι → ℝ) :
    ∫ x, f x ∂(extMeasure μ ν) = ∫ y, f (WithLp.toLp 2 y) ∂(μ.prod ν) := by
  unfold extMeasure
  exact (MeasurableEquiv.toLp 2 (E × EuclideanSpace ℝ ι)).measurableEmbedding.integral_map f

lemma uncorr_integrable (hν : Uncorrelated ν v) (k l : ι) : Integrable (fun w : EuclideanSpace ℝ ι => w k * w l) ν :=
  (hν.memLp k).integrable_mul (hν.memLp l)

lemma integral_quadratic [SFinite μ] (hν : Uncorrelated ν v) (F : ι → ι → E → ℝ)
    (hF : ∀ k l, Integrable (F k l) μ) :
    Integrable (fun y : E × EuclideanSpace ℝ ι => ∑ k, ∑ l, F k l y.1 * (y.2 k * y.2 l)) (μ.prod ν) ∧
    ∫ y, ∑ k, ∑ l, F k l y.1 * (y.2 k * y.2 l) ∂(μ.prod ν) = ∑ k, v k * ∫ θ, F k k θ ∂μ := by
  have := hν.prob
  have hi : ∀ k l, Integrable (fun y : E × EuclideanSpace ℝ ι => F k l y.1 * (y.2 k * y.2 l)) (μ.prod ν) :=
    fun k l => (hF k l).mul_prod (uncorr_integrable ν v hν k l)
  refine ⟨integrable_finsetSum _ fun k _ => integrable_finsetSum _ fun l _ => hi k l, ?_⟩
  rw [integral_finsetSum _ fun k _ => integrable_finsetSum _ fun l _ => hi k l]
  refine Finset.sum_congr rfl fun k _ => ?_
  rw [integral_finsetSum _ fun l _ => hi k l]
  rw [Finset.sum_eq_single k]
  · rw [integral_prod_mul (μ := μ) (ν := ν) (F k k) (fun w : EuclideanSpace ℝ ι => w k * w k), hν.var]
    ring
  · intro l _ hl
    rw [integral_prod_mul (μ := μ) (ν := ν) (F k l) (fun w : EuclideanSpace ℝ ι => w k * w l),
      hν.cov k l (Ne.symm hl), mul_zero]
  · simp

/-- Second moment of a random linear layer. -/
lemma secondMoment_linOut [SFinite μ] (hν : Uncorrelated ν v) (g g' : ι → E → ℝ)
    (hg : ∀ k l, Integrable (fun θ => g k θ * g' l θ) μ) :
    secondMoment (extMeasure μ ν) (linOut g) (linOut g') = ∑ k, v k * secondMoment μ (g k) (g' k) := by
  unfold secondMoment
  rw [integral_ext, ← (integral_quadratic μ ν v hν (fun k l θ => g k θ * g' l θ) hg).2]
  congr 1
  ext y
  simp only [linOut, Finset.sum_mul_sum]
  refine Finset.sum_congr rfl fun k _ => Finset.sum_congr rfl fun l _ => ?_
  show y.2 k * g k y.1 * (y.2 l * g' l y.1) = _
  ring

/-- Tangent kernel of a random linear layer: the layer's own parameters, then the network below. -/
lemma tangent_linOut [SFinite μ] (hν : Uncorrelated ν v) (g g' : ι → E → ℝ)
    (hg : ∀ k, Integrable (fun θ => g k θ * g' k θ) μ)
    (hd : ∀ k, ∀ᵐ θ ∂μ, DifferentiableAt ℝ (g k) θ) (hd' : ∀ k, ∀ᵐ θ ∂μ, DifferentiableAt ℝ (g' k) θ)
    (hi : ∀ k l, Integrable (fun θ => inner ℝ (gradient (g k) θ) (gradient (g' l) θ)) μ) :
    tangent (extMeasure μ ν) (linOut g) (linOut g') =
      ∑ k, secondMoment μ (g k) (g' k) + ∑ k, v k * tangent μ (g k) (g' k) := by
  have := hν.prob
  unfold tangent secondMoment
  obtain ⟨q1, q2⟩ := integral_quadratic μ ν v hν
    (fun k l θ => inner ℝ (gradient (g k) θ) (gradient (g' l) θ)) hi
  rw [integral_ext, ← q2]
  have hd2 : ∀ᵐ y ∂(μ.prod ν), (∀ k, DifferentiableAt ℝ (g k) y.1) ∧ ∀ k, DifferentiableAt ℝ (g' k) y.1 :=
    (Measure.quasiMeasurePreserving_fst (μ := μ) (ν := ν)).ae ((ae_all_iff.2 hd).and (ae_all_iff.2 hd'))
  have e : ∀ᵐ y ∂(μ.prod ν), inner ℝ (gradient (linOut g) (WithLp.toLp 2 y)) (gradient (linOut g') (WithLp.toLp 2 y)) =
      (∑ k, g k y.1 * g' k y.1) +
        ∑ k, ∑ l, inner ℝ (gradient (g k) y.1) (gradient (g' l) y.1) * (y.2 k * y.2 l) := by
    filter_upwards [hd2] with y hy
    rw [(linOut_hasGradientAt g y.1 y.2 hy.1).gradient, (linOut_hasGradientAt g' y.1 y.2 hy.2).gradient,
      WithLp.prod_inner_apply, add_comm]
    congr 1
    · rw [EuclideanSpace.inner_eq_star_dotProduct]
      simp only [dotProduct]
      refine Finset.sum_congr rfl fun k _ => ?_
      simp [mul_comm]
    · show inner ℝ (∑ k, y.2 k • gradient (g k) y.1) (∑ k, y.2 k • gradient (g' k) y.1) = _
      rw [sum_inner]
      refine Finset.sum_congr rfl fun k _ => ?_
      rw [inner_sum]
      refine Finset.sum_congr rfl fun l _ => ?_
      rw [real_inner_smul_left, real_inner_smul_right]
      ring
  rw [integral_congr_ae e]
  have h1 : ∀ k, Integrable (fun y : E × EuclideanSpace ℝ ι => g k y.1 * g' k y.1) (μ.prod ν) :=
    fun k => (hg k).comp_fst ν
  rw [integral_add (integrable_finsetSum _ fun k _ => h1 k) q1, integral_finsetSum _ fun k _ => h1 k]
  congr 1
  refine Finset.sum_congr rfl fun k _ => ?_
  rw [integral_fun_fst (fun θ => g k θ * g' k θ)]
  simp

end Integrals

end NT
