import Verif.Tac
import Verif.Spec.Posterior
import Mathlib.Probability.Moments.Covariance
import Mathlib.Probability.Distributions.Gaussian.Multivariate

/-!
# Conditioning a Gaussian vector
-/

namespace NT.Predict
open NT Spec Matrix MeasureTheory ProbabilityTheory

variable {Ω : Type} [MeasurableSpace Ω] {ι κ : Type} [Fintype ι] [Fintype κ]

omit [Fintype κ] in
/-- Covariances of `v - A u`. -/
lemma cov_resid {P : Measure Ω} [IsProbabilityMeasure P] {u : ι → Ω → ℝ} {v : κ → Ω → ℝ} {K : Matrix ι ι ℝ} {K' : Matrix κ ι ℝ}
    {K'' : Matrix κ κ ℝ} (hu : ∀ i, MemLp (u i) 2 P) (hv : ∀ j, MemLp (v j) 2 P) (huu : ∀ i i', cov[u i, u i'; P] = K i i')
    (hvu : ∀ j i, cov[v j, u i; P] = K' j i) (hvv : ∀ j j', cov[v j, v j'; P] = K'' j j') (A : Matrix κ ι ℝ) :
    (∀ j i, cov[fun ω => v j ω - (A *ᵥ fun i => u i ω) j, u i; P] = (K' - A * K) j i) ∧
    ∀ j j', cov[fun ω => v j ω - (A *ᵥ fun i => u i ω) j, fun ω => v j' ω - (A *ᵥ fun i => u i ω) j'; P] =
      (K'' - A * K'ᵀ - K' * Aᵀ + A * K * Aᵀ) j j' := by
  have hA : ∀ j, MemLp (fun ω => (A *ᵥ fun i => u i ω) j) 2 P := by
    intro j
    simp only [mulVec, dotProduct]
    exact memLp_finsetSum _ fun i _ => (hu i).const_mul _
  have e1 : ∀ (X : Ω → ℝ), MemLp X 2 P → ∀ j, cov[fun ω => (A *ᵥ fun i => u i ω) j, X; P] = ∑ i, A j i * cov[u i, X; P] := by
    intro X hX j
    simp only [mulVec, dotProduct]
    rw [covariance_fun_sum_left (fun i => (hu i).const_mul _) hX]
    exact Finset.sum_congr rfl fun i _ => covariance_const_mul_left _
  have e2 : ∀ (X : Ω → ℝ), MemLp X 2 P → ∀ j, cov[X, fun ω => (A *ᵥ fun i => u i ω) j; P] = ∑ i, A j i * cov[X, u i; P] := by
    intro X hX j
    rw [covariance_comm, e1 X hX j]
    exact Finset.sum_congr rfl fun i _ => by rw [covariance_comm]
  have d1 : ∀ j i, cov[fun ω => v j ω - (A *ᵥ fun i => u i ω) j, u i; P] = (K' - A * K) j i := by
    intro j i
    rw [covariance_fun_sub_left (hv j) (hA j) (hu i), e1 _ (hu i), hvu, Matrix.sub_apply, mul_apply]
    congr 1
    exact Finset.sum_congr rfl fun i' _ => by rw [huu]
  refine ⟨d1, fun j j' => ?_⟩
  have hs : MemLp (fun ω => v j ω - (A *ᵥ fun i => u i ω) j) 2 P := (hv j).sub (hA j)
  rw [covariance_fun_sub_right hs (hv j') (hA j'), e2 _ hs,
    covariance_fun_sub_left (hv j) (hA j) (hv j'), e1 _ (hv j'), hvv]
  have h3 : ∑ i, A j' i * cov[fun ω => v j ω - (A *ᵥ fun i => u i ω) j, u i; P] = ((K' - A * K) * Aᵀ) j j' := by
    rw [mul_apply]
    exact Finset.sum_congr rfl fun i _ => by rw [d1, transpose_apply, mul_comm]
  have h4 : ∑ i, A j i * cov[u i, v j'; P] = (A * K'ᵀ) j j' := by
    rw [mul_apply]
    exact Finset.sum_congr rfl fun i _ => by rw [covariance_comm, hvu, transpose_apply]
  rw [h3, h4, Matrix.sub_mul]
  simp only [Matrix.sub_apply, Matrix.add_apply]
  ring

/-- The residual of a linear regression whose coefficients solve the normal equations. -/
lemma conditional_of_normal {P : Measure Ω} {u : ι → Ω → ℝ} {v : κ → Ω → ℝ} {K : Matrix ι ι ℝ} {K' : Matrix κ ι ℝ}
    {K'' : Matrix κ κ ℝ} (h : JointGaussian P u v K K' K'') (A : Matrix κ ι ℝ) (hA : A * K = K') :
    Conditional P u v (fun y => A *ᵥ y) (K'' - A * K'ᵀ) := by
  have hP := h.gauss.isProbabilityMeasure
  have hu : ∀ i, MemLp (u i) 2 P := fun i => (h.gauss.fst.eval i).memLp_two
  have hv : ∀ j, MemLp (v j) 2 P := fun j => (h.gauss.snd.eval j).memLp_two
  obtain ⟨c1, c2⟩ := cov_resid hu hv h.cov_uu h.cov_vu h.cov_vv A
  let L : ((ι → ℝ) × (κ → ℝ)) →L[ℝ] ((κ → ℝ) × (ι → ℝ)) :=
    (ContinuousLinearMap.snd ℝ _ _ - (LinearMap.toContinuousLinearMap (Matrix.mulVecLin A)).comp (ContinuousLinearMap.fst ℝ _ _)).prod
      (ContinuousLinearMap.fst ℝ _ _)
  have hg : HasGaussianLaw (fun ω => (fun j => v j ω - (A *ᵥ fun i => u i ω) j, fun i => u i ω)) P := h.gauss.map_fun L
  refine ⟨hg.fst, ?_, ?_, ?_⟩
  · intro j
    have hAi : Integrable (fun ω => (A *ᵥ fun i => u i ω) j) P := by
      simp only [mulVec, dotProduct]
      exact integrable_finsetSum _ fun i _ => ((hu i).integrable (by norm_num)).const_mul _
    rw [integral_sub ((hv j).integrable (by norm_num)) hAi, h.mean_v]
    simp only [mulVec, dotProduct]
    rw [integral_finsetSum _ fun i _ => ((hu i).integrable (by norm_num)).const_mul _]
    simp [integral_const_mul, h.mean_u]
  · intro j j'
    rw [c2]
    have : A * K * Aᵀ = K' * Aᵀ := by rw [hA]
    rw [this]
    simp
  · refine HasGaussianLaw.indepFun_of_covariance_eval hg fun j i => ?_
    rw [c1, hA]
    simp

/-- Jointly Gaussian outputs with given covariances exist. -/
lemma exists_joint [DecidableEq ι] [DecidableEq κ] (K : Matrix ι ι ℝ) (K' : Matrix κ ι ℝ) (K'' : Matrix κ κ ℝ)
    (h : (fromBlocks K K'ᵀ K' K'').PosSemidef) :
    ∃ (P : Measure (EuclideanSpace ℝ (ι ⊕ κ))) (u : ι → _ → ℝ) (v : κ → _ → ℝ), JointGaussian P u v K K' K'' := by
  set G := fromBlocks K K'ᵀ K' K'' with hG
  have hg : HasGaussianLaw (id : EuclideanSpace ℝ (ι ⊕ κ) → _) (multivariateGaussian 0 G) := IsGaussian.hasGaussianLaw_id
  let L : EuclideanSpace ℝ (ι ⊕ κ) →L[ℝ] ((ι → ℝ) × (κ → ℝ)) :=
    (ContinuousLinearMap.pi fun i => EuclideanSpace.proj (Sum.inl i)).prod (ContinuousLinearMap.pi fun j => EuclideanSpace.proj (Sum.inr j))
  have hm : ∀ s, ∫ x : EuclideanSpace ℝ (ι ⊕ κ), x s ∂(multivariateGaussian 0 G) = 0 := by
    intro s
    have h1 := (EuclideanSpace.proj s : EuclideanSpace ℝ (ι ⊕ κ) →L[ℝ] ℝ).integral_comp_id_comm
      (IsGaussian.integrable_id (μ := multivariateGaussian 0 G))
    have h2 := integral_id_multivariateGaussian (μ := (0 : EuclideanSpace ℝ (ι ⊕ κ))) (S := G)
    rw [h2, map_zero] at h1
    exact h1
  refine ⟨multivariateGaussian 0 G, fun i x => x (.inl i), fun j x => x (.inr j), ⟨hg.map_fun L, fun i => hm _, fun j => hm _, ?_, ?_, ?_⟩⟩
  · intro i i'
    exact covariance_eval_multivariateGaussian h (Sum.inl i) (Sum.inl i')
  · intro j i
    exact covariance_eval_multivariateGaussian h (Sum.inr j) (Sum.inl i)
  · intro j j'
    exact covariance_eval_multivariateGaussian h (Sum.inr j) (Sum.inr j')

end NT.Predict
