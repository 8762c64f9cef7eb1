import Verif.Lemmas.GaussTilt
import Verif.Model.Elementwise

/-!
# The error function as a smoothed sign
-/

namespace NT.Gauss
open MeasureTheory ProbabilityTheory Spec Set

lemma integral_cross {Ω Ω' : Type*} [MeasurableSpace Ω] [MeasurableSpace Ω'] {μ : Measure Ω} {ν : Measure Ω'}
    [IsProbabilityMeasure μ] [IsProbabilityMeasure ν] {f1 f2 : Ω → ℝ} {g1 g2 : Ω' → ℝ}
    (hf1 : MemLp f1 2 μ) (hf2 : MemLp f2 2 μ) (hg1 : MemLp g1 2 ν) (hg2 : MemLp g2 2 ν) :
    ∫ z : Ω × Ω', (f1 z.1 + g1 z.2) * (f2 z.1 + g2 z.2) ∂(μ.prod ν) =
      ∫ x, f1 x * f2 x ∂μ + (∫ x, f1 x ∂μ) * (∫ y, g2 y ∂ν) + ((∫ x, f2 x ∂μ) * (∫ y, g1 y ∂ν) + ∫ y, g1 y * g2 y ∂ν) := by
  have i1 : Integrable (fun z : Ω × Ω' => f1 z.1 * f2 z.1 * (fun _ => (1 : ℝ)) z.2) (μ.prod ν) :=
    (hf1.integrable_mul hf2).mul_prod (integrable_const 1)
  have i2 : Integrable (fun z : Ω × Ω' => f1 z.1 * g2 z.2) (μ.prod ν) :=
    (hf1.integrable (by norm_num)).mul_prod (hg2.integrable (by norm_num))
  have i3 : Integrable (fun z : Ω × Ω' => f2 z.1 * g1 z.2) (μ.prod ν) :=
    (hf2.integrable (by norm_num)).mul_prod (hg1.integrable (by norm_num))
  have i4 : Integrable (fun z : Ω × Ω' => (fun _ => (1 : ℝ)) z.1 * (g1 z.2 * g2 z.2)) (μ.prod ν) :=
    (integrable_const 1).mul_prod (hg1.integrable_mul hg2)
  have e : (fun z : Ω × Ω' => (f1 z.1 + g1 z.2) * (f2 z.1 + g2 z.2)) = fun z =>
      (f1 z.1 * f2 z.1 * (fun _ => (1 : ℝ)) z.2 + f1 z.1 * g2 z.2) +
        (f2 z.1 * g1 z.2 + (fun _ => (1 : ℝ)) z.1 * (g1 z.2 * g2 z.2)) := by
    funext z
    ring
  have i12 : Integrable (fun z : Ω × Ω' => f1 z.1 * f2 z.1 * (fun _ => (1 : ℝ)) z.2 + f1 z.1 * g2 z.2) (μ.prod ν) := i1.add i2
  have i34 : Integrable (fun z : Ω × Ω' => f2 z.1 * g1 z.2 + (fun _ => (1 : ℝ)) z.1 * (g1 z.2 * g2 z.2)) (μ.prod ν) := i3.add i4
  rw [e, integral_add i12 i34, integral_add i1 i2, integral_add i3 i4, integral_prod_mul (fun x => f1 x * f2 x) (fun _ => (1 : ℝ)),
    integral_prod_mul f1 g2, integral_prod_mul f2 g1, integral_prod_mul (fun _ => (1 : ℝ)) (fun y => g1 y * g2 y)]
  simp

lemma integral_cross1 {Ω Ω' : Type*} [MeasurableSpace Ω] [MeasurableSpace Ω'] {μ : Measure Ω} {ν : Measure Ω'}
    [IsProbabilityMeasure μ] [IsProbabilityMeasure ν] {f : Ω → ℝ} {g : Ω' → ℝ}
    (hf : MemLp f 2 μ) (hg : MemLp g 2 ν) :
    ∫ z : Ω × Ω', f z.1 + g z.2 ∂(μ.prod ν) = ∫ x, f x ∂μ + ∫ y, g y ∂ν := by
  have h := integral_cross (μ := μ) (ν := ν) hf (memLp_const (1 : ℝ)) hg (memLp_const (0 : ℝ))
  simpa using h

variable {P Q : Measure (ℝ × ℝ)} {q11 q12 q22 r11 r12 r22 : ℝ}

/-- The law of the sum of two independent Gaussian pairs. -/
lemma _root_.NT.Spec.GaussPair.sum (h : GaussPair P q11 q12 q22) (h' : GaussPair Q r11 r12 r22) :
    GaussPair ((P.prod Q).map fun z => (z.1.1 + z.2.1, z.1.2 + z.2.2)) (q11 + r11) (q12 + r12) (q22 + r22) := by
  have hg := h.gaussian
  have hg' := h'.gaussian
  have hm : Measurable (fun z : (ℝ × ℝ) × (ℝ × ℝ) => (z.1.1 + z.2.1, z.1.2 + z.2.2)) := by fun_prop
  have a1 := memLp_fst (P := P) 2 (by norm_num)
  have a2 := memLp_snd (P := P) 2 (by norm_num)
  have b1 := memLp_fst (P := Q) 2 (by norm_num)
  have b2 := memLp_snd (P := Q) 2 (by norm_num)
  refine ⟨?_, ?_, ?_, ?_, ?_, ?_⟩
  · have := isGaussian_map (μ := P.prod Q) (ContinuousLinearMap.fst ℝ (ℝ × ℝ) (ℝ × ℝ) + ContinuousLinearMap.snd ℝ (ℝ × ℝ) (ℝ × ℝ))
    exact this
  · rw [integral_map hm.aemeasurable (by fun_prop)]
    have := integral_cross1 a1 b1
    rw [h.mean1, h'.mean1, add_zero] at this
    exact this
  · rw [integral_map hm.aemeasurable (by fun_prop)]
    have := integral_cross1 a2 b2
    rw [h.mean2, h'.mean2, add_zero] at this
    exact this
  · rw [integral_map hm.aemeasurable (by fun_prop)]
    have := integral_cross a1 a1 b1 b1
    simp only [← pow_two] at this
    rw [h.mean1, h'.mean1, h.var1, h'.var1] at this
    rw [this]
    ring
  · rw [integral_map hm.aemeasurable (by fun_prop)]
    have := integral_cross a1 a2 b1 b2
    rw [h.mean1, h'.mean1, h.cov, h'.cov] at this
    rw [this]
    ring
  · rw [integral_map hm.aemeasurable (by fun_prop)]
    have := integral_cross a2 a2 b2 b2
    simp only [← pow_two] at this
    rw [h.mean2, h'.mean2, h.var2, h'.var2] at this
    rw [this]
    ring

/-- An even integrable density. -/
lemma integral_sg_shift (ρ : ℝ → ℝ) (hi : Integrable ρ) (he : ∀ z, ρ (-z) = ρ z) (y : ℝ) :
    ∫ z, sg (y + z) * ρ z = 2 * ∫ z in (0)..y, ρ z := by
  have hmeas : Integrable (fun z => sg (y + z) * ρ z) := by
    refine hi.mono ?_ (Filter.Eventually.of_forall fun z => ?_)
    · exact (measurable_sg.comp (by fun_prop)).aestronglyMeasurable.mul hi.1
    · rw [norm_mul, Real.norm_eq_abs]
      have := abs_sg_le (y + z)
      nlinarith [norm_nonneg (ρ z)]
  rw [← intervalIntegral.integral_Iic_add_Ioi (b := -y) hmeas.integrableOn hmeas.integrableOn]
  have e1 : ∫ z in Iic (-y), sg (y + z) * ρ z = -∫ z in Iic (-y), ρ z := by
    rw [integral_Iic_eq_integral_Iio, integral_Iic_eq_integral_Iio, ← integral_neg]
    refine setIntegral_congr_fun measurableSet_Iio fun z hz => ?_
    have hz' : z < -y := hz
    show sg (y + z) * ρ z = -ρ z
    rw [sg_neg (by linarith)]
    ring
  have e2 : ∫ z in Ioi (-y), sg (y + z) * ρ z = ∫ z in Ioi (-y), ρ z := by
    refine setIntegral_congr_fun measurableSet_Ioi fun z hz => ?_
    have hz' : -y < z := hz
    show sg (y + z) * ρ z = ρ z
    rw [sg_pos (by linarith)]
    ring
  have e3 : ∫ z in Iic (-y), ρ z = ∫ z in Ioi y, ρ z := by
    have := integral_comp_neg_Iic (-y) ρ
    rw [neg_neg] at this
    rw [← this]
    simp only [he]
  have e4 := intervalIntegral.integral_Ioi_sub_Ioi' (a := -y) (b := y) (f := ρ) hi.integrableOn hi.integrableOn
  have e5 : ∫ z in (-y)..y, ρ z = 2 * ∫ z in (0)..y, ρ z := by
    rw [← intervalIntegral.integral_add_adjacent_intervals (b := 0) hi.intervalIntegrable hi.intervalIntegrable]
    have : ∫ z in (-y)..0, ρ z = ∫ z in (0)..y, ρ z := by
      have := intervalIntegral.integral_comp_neg (a := 0) (b := y) ρ
      rw [neg_zero] at this
      rw [← this]
      simp only [he]
    rw [this]
    ring
  rw [e1, e2, e3]
  linarith

/-- The error function is the expected sign with Gaussian noise. -/
lemma erf_eq (x : ℝ) : erf x = ∫ z, sg (Real.sqrt 2 * x + z) ∂std := by
  unfold std
  rw [integral_gaussianReal_eq_integral_smul one_ne_zero]
  have e : (fun z => gaussianPDFReal 0 1 z • sg (Real.sqrt 2 * x + z)) = fun z => sg (Real.sqrt 2 * x + z) * gaussianPDFReal 0 1 z := by
    funext z
    rw [smul_eq_mul, mul_comm]
  rw [e, integral_sg_shift _ (integrable_gaussianPDFReal 0 1) (fun z => by simp [gaussianPDFReal])]
  have h2 : Real.sqrt 2 ≠ 0 := by positivity
  have := intervalIntegral.integral_comp_mul_left (a := 0) (b := x) (fun z => gaussianPDFReal 0 1 z) h2
  rw [mul_zero, smul_eq_mul] at this
  have h3 : ∫ z in (0)..(Real.sqrt 2 * x), gaussianPDFReal 0 1 z = Real.sqrt 2 * ∫ t in (0)..x, gaussianPDFReal 0 1 (Real.sqrt 2 * t) := by
    rw [this, ← mul_assoc, mul_inv_cancel₀ h2, one_mul]
  rw [h3]
  have h4 : ∀ t : ℝ, gaussianPDFReal 0 1 (Real.sqrt 2 * t) = (Real.sqrt (2 * Real.pi))⁻¹ * Real.exp (-t ^ 2) := by
    intro t
    simp only [gaussianPDFReal, NNReal.coe_one, mul_one, sub_zero]
    congr 2
    rw [mul_pow, Real.sq_sqrt (by norm_num)]
    ring
  simp only [h4]
  rw [intervalIntegral.integral_const_mul, Real.sqrt_mul (by norm_num)]
  unfold erf
  have : Real.sqrt Real.pi ≠ 0 := by
    have := Real.pi_pos
    positivity
  field_simp

lemma abs_erf_le (x : ℝ) : |erf x| ≤ 1 := by
  rw [erf_eq]
  have hp : IsProbabilityMeasure std := by unfold std; infer_instance
  have := norm_integral_le_of_norm_le_const (μ := std) (f := fun z => sg (Real.sqrt 2 * x + z)) (C := 1)
    (Filter.Eventually.of_forall fun z => by rw [Real.norm_eq_abs]; exact abs_sg_le _)
  simpa using this

lemma hasDerivAt_erf (x : ℝ) : HasDerivAt erf (2 / Real.sqrt Real.pi * Real.exp (-x ^ 2)) x := by
  unfold erf
  have hc : Continuous fun t : ℝ => Real.exp (-t ^ 2) := by fun_prop
  exact (intervalIntegral.integral_hasDerivAt_right (hc.intervalIntegrable 0 x)
    hc.stronglyMeasurable.stronglyMeasurableAtFilter hc.continuousAt).const_mul _

lemma continuous_erf : Continuous erf := continuous_iff_continuousAt.2 fun x => (hasDerivAt_erf x).continuousAt

lemma erf_neg (x : ℝ) : erf (-x) = -erf x := by
  unfold erf
  have := intervalIntegral.integral_comp_neg (a := 0) (b := x) (fun t : ℝ => Real.exp (-t ^ 2))
  rw [neg_zero] at this
  simp only [neg_sq] at this
  rw [intervalIntegral.integral_symm (-x) 0, ← this]
  ring

/-- The expectation of the product of two error functions. -/
lemma _root_.NT.Spec.GaussPair.erf_erf (h : GaussPair P q11 q12 q22) :
    ∃ θ, 0 ≤ θ ∧ θ ≤ Real.pi ∧ 2 * q12 = Real.sqrt (1 + 2 * q11) * Real.sqrt (1 + 2 * q22) * Real.cos θ ∧
      ∫ x, erf x.1 * erf x.2 ∂P = 1 - 2 * θ / Real.pi := by
  have hg := h.gaussian
  have h2 := h.map_pair (Real.sqrt 2) 0 0 (Real.sqrt 2)
  have s2 : Real.sqrt 2 ^ 2 = 2 := Real.sq_sqrt (by norm_num)
  have hs := h2.sum std2_pair
  rw [s2, show 2 * q11 + 2 * Real.sqrt 2 * 0 * q12 + 0 ^ 2 * q22 + 1 = 1 + 2 * q11 by ring,
    show Real.sqrt 2 * 0 * q11 + (Real.sqrt 2 * Real.sqrt 2 + 0 * 0) * q12 + 0 * Real.sqrt 2 * q22 + 0 = 2 * q12 by
      linear_combination q12 * s2,
    show (0 : ℝ) ^ 2 * q11 + 2 * 0 * Real.sqrt 2 * q12 + 2 * q22 + 1 = 1 + 2 * q22 by ring] at hs
  obtain ⟨θ, t1, t2, t3, -, t5, -⟩ := hs.sign_abs
  refine ⟨θ, t1, t2, t3, ?_⟩
  rw [← t5]
  have hp2 : IsProbabilityMeasure std2 := std2_pair.gaussian.toIsProbabilityMeasure
  have hsg : Measurable fun x : ℝ × ℝ => sg x.1 * sg x.2 :=
    (measurable_sg.comp measurable_fst).mul (measurable_sg.comp measurable_snd)
  have hgm := h2.gaussian
  rw [integral_map (by fun_prop) hsg.aestronglyMeasurable]
  have hint : Integrable (fun z : (ℝ × ℝ) × (ℝ × ℝ) => sg (z.1.1 + z.2.1) * sg (z.1.2 + z.2.2))
      ((P.map fun z => (Real.sqrt 2 * z.1 + 0 * z.2, 0 * z.1 + Real.sqrt 2 * z.2)).prod std2) := by
    refine Integrable.of_bound (Measurable.aestronglyMeasurable ?_) 1 (Filter.Eventually.of_forall fun z => ?_)
    · exact (measurable_sg.comp (by fun_prop)).mul (measurable_sg.comp (by fun_prop))
    · rw [Real.norm_eq_abs, abs_mul]
      exact mul_le_one₀ (abs_sg_le _) (abs_nonneg _) (abs_sg_le _)
  rw [integral_prod _ hint, integral_map (by fun_prop) ?_]
  · congr 1
    funext x
    dsimp only
    rw [erf_eq, erf_eq, ← integral_prod_mul (μ := std) (ν := std) (fun z => sg (Real.sqrt 2 * x.1 + z)) (fun z => sg (Real.sqrt 2 * x.2 + z))]
    unfold std2
    congr 1
    funext z
    congr 3 <;> ring
  · exact hint.integral_prod_left.1

end NT.Gauss
