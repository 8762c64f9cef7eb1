import Verif.Lemmas.Gram
import Verif.Spec.GaussPair
import Mathlib.Probability.Distributions.Gaussian.Multivariate
import Mathlib.MeasureTheory.Function.L2Space

/-!
A positive semidefinite kernel is the covariance of jointly Gaussian variables, so that the expectations of products of a function of
them are again positive semidefinite.
-/

namespace NT
open Spec MeasureTheory ProbabilityTheory
open scoped NNReal

variable {n : ℕ} {S : List ℕ} {K G : List ℕ → List ℕ → List ℕ → ℝ}

/-- The joint law of the variables of a positive semidefinite kernel. -/
noncomputable abbrev field (n : ℕ) (S : List ℕ) (K : List ℕ → List ℕ → List ℕ → ℝ) : Measure (EuclideanSpace ℝ (Row n S)) :=
  multivariateGaussian 0 (rowMat n S K)

lemma field_eval (hK : PsdOn n S K) (x : Row n S) :
    MeasurePreserving (fun ω => ω x) (field n S K) (gaussianReal 0 (K [x.1.1, x.1.1] x.1.2 x.1.2).toNNReal) := by
  have := measurePreserving_eval_multivariateGaussian (μ := 0) (psdOn_iff.1 hK) (i := x)
  exact this

lemma field_pair (hK : PsdOn n S K) (x y : Row n S) :
    GaussPair ((field n S K).map fun ω => (ω x, ω y)) (K [x.1.1, x.1.1] x.1.2 x.1.2) (K [x.1.1, y.1.1] x.1.2 y.1.2)
      (K [y.1.1, y.1.1] y.1.2 y.1.2) := by
  have hm : Measurable fun ω : EuclideanSpace ℝ (Row n S) => (ω x, ω y) := by fun_prop
  have hS := psdOn_iff.1 hK
  have h0 : ∀ z : Row n S, ∫ ω, ω z ∂field n S K = 0 := by
    intro z
    have := integral_id_gaussianReal (μ := 0) (v := (K [z.1.1, z.1.1] z.1.2 z.1.2).toNNReal)
    rw [← (field_eval hK z).map_eq, integral_map (field_eval hK z).measurable.aemeasurable (by fun_prop)] at this
    exact this
  have hmem : ∀ z : Row n S, MemLp (fun ω => ω z) 2 (field n S K) := by
    intro z
    have := (memLp_id_gaussianReal (μ := 0) (v := (K [z.1.1, z.1.1] z.1.2 z.1.2).toNNReal) 2)
    exact this.comp_measurePreserving (field_eval hK z)
  have hc : ∀ z w : Row n S, ∫ ω, ω z * ω w ∂field n S K = K [z.1.1, w.1.1] z.1.2 w.1.2 := by
    intro z w
    have := covariance_eval_multivariateGaussian (μ := 0) hS z w
    rw [covariance_eq_sub (hmem z) (hmem w)] at this
    simpa [h0, rowMat] using this
  constructor
  · have : (fun ω : EuclideanSpace ℝ (Row n S) => (ω x, ω y)) =
        ((EuclideanSpace.proj x : EuclideanSpace ℝ (Row n S) →L[ℝ] ℝ).prod (EuclideanSpace.proj y)) := by
      ext ω <;> rfl
    rw [this]
    infer_instance
  · rw [integral_map hm.aemeasurable (by fun_prop)]
    exact h0 x
  · rw [integral_map hm.aemeasurable (by fun_prop)]
    exact h0 y
  · rw [integral_map hm.aemeasurable (by fun_prop)]
    simpa [sq] using hc x x
  · rw [integral_map hm.aemeasurable (by fun_prop)]
    exact hc x y
  · rw [integral_map hm.aemeasurable (by fun_prop)]
    simpa [sq] using hc y y

/-- Expectations of products of a function of the variables are positive semidefinite. -/
lemma dual_psd (hK : PsdOn n S K) {φ : ℝ → ℝ} (hφ : Measurable φ) (hL : ∀ v : ℝ≥0, MemLp φ 2 (gaussianReal 0 v))
    (hG : ∀ i j p q, i < n → j < n → InRange p S → InRange q S → ∀ P, GaussPair P (K [i, i] p p) (K [i, j] p q) (K [j, j] q q) →
      G [i, j] p q = ∫ x, φ x.1 * φ x.2 ∂P) : PsdOn n S G := by
  have key : ∀ x y : Row n S, rowMat n S G x y = ∫ ω, φ (ω x) * φ (ω y) ∂field n S K := by
    intro x y
    obtain ⟨h1, h2⟩ := mem_row x
    obtain ⟨h3, h4⟩ := mem_row y
    have hm : Measurable fun ω : EuclideanSpace ℝ (Row n S) => (ω x, ω y) := by fun_prop
    rw [rowMat, hG _ _ _ _ h1 h3 h2 h4 _ (field_pair hK x y), integral_map hm.aemeasurable]
    exact ((hφ.comp measurable_fst).mul (hφ.comp measurable_snd)).aestronglyMeasurable
  have hmem : ∀ x : Row n S, MemLp (fun ω => φ (ω x)) 2 (field n S K) :=
    fun x => (hL _).comp_measurePreserving (field_eval hK x)
  rw [psdOn_iff, Matrix.posSemidef_iff_dotProduct_mulVec]
  refine ⟨?_, fun c => ?_⟩
  · ext x y
    simp only [Matrix.conjTranspose_apply, star_trivial, key]
    exact integral_congr_ae (.of_forall fun ω => mul_comm _ _)
  · have e : star c ⬝ᵥ Matrix.mulVec (rowMat n S G) c = ∫ ω, (∑ x, c x * φ (ω x)) ^ 2 ∂field n S K := by
      simp only [dotProduct, Matrix.mulVec, Finset.mul_sum, Pi.star_apply, star_trivial, key]
      simp only [sq, Finset.sum_mul_sum]
      have hi : ∀ x y : Row n S, Integrable (fun ω => c x * φ (ω x) * (c y * φ (ω y))) (field n S K) := by
        intro x y
        have := ((hmem x).integrable_mul (hmem y)).const_mul (c x * c y)
        refine this.congr (.of_forall fun ω => ?_)
        simp only [Pi.mul_apply]
        ring
      rw [integral_finsetSum _ fun x _ => integrable_finsetSum _ fun y _ => hi x y]
      refine Finset.sum_congr rfl fun x _ => ?_
      rw [integral_finsetSum _ fun y _ => hi x y]
      refine Finset.sum_congr rfl fun y _ => ?_
      rw [show (fun ω : EuclideanSpace ℝ (Row n S) => c x * φ (ω x) * (c y * φ (ω y))) = fun ω => (c x * c y) * (φ (ω x) * φ (ω y)) from by
        funext ω; ring, integral_const_mul]
      ring
    rw [e]
    exact integral_nonneg fun ω => sq_nonneg _

end NT
