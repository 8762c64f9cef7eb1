import Verif.Lemmas.GaussPair

/-!
# Exponential and trigonometric moments of Gaussian pairs
-/

namespace NT.Gauss
open MeasureTheory ProbabilityTheory Spec

variable {P : Measure (ℝ × ℝ)} {q11 q12 q22 : ℝ}

lemma _root_.NT.Spec.GaussPair.exp (h : GaussPair P q11 q12 q22) (s t : ℝ) :
    ∫ x, Real.exp (s * x.1 + t * x.2) ∂P = Real.exp ((s ^ 2 * q11 + 2 * s * t * q12 + t ^ 2 * q22) / 2) := by
  have e := h.map_lin s t
  have hm := mgf_gaussianReal e 1
  unfold mgf at hm
  simp only [one_mul, zero_add, one_pow, mul_one] at hm
  rw [hm, Real.coe_toNNReal _ (h.form_nonneg s t)]

lemma _root_.NT.Spec.GaussPair.char (h : GaussPair P q11 q12 q22) (s t : ℝ) :
    ∫ x, Complex.exp (((s * x.1 + t * x.2 : ℝ) : ℂ) * Complex.I) ∂P =
      (Real.exp (-((s ^ 2 * q11 + 2 * s * t * q12 + t ^ 2 * q22) / 2)) : ℝ) := by
  have e := h.map_lin s t
  have := charFun_gaussianReal (μ := 0) (v := (s ^ 2 * q11 + 2 * s * t * q12 + t ^ 2 * q22).toNNReal) 1
  rw [← e, charFun_apply_real, integral_map (by fun_prop) (by fun_prop)] at this
  have hv := Real.coe_toNNReal _ (h.form_nonneg s t)
  simp only [Complex.ofReal_one, one_mul, Complex.ofReal_zero, mul_zero, zero_mul, zero_sub, one_pow, mul_one] at this
  rw [this]
  have : (((s ^ 2 * q11 + 2 * s * t * q12 + t ^ 2 * q22).toNNReal : ℝ) : ℂ) =
      ((s ^ 2 * q11 + 2 * s * t * q12 + t ^ 2 * q22 : ℝ) : ℂ) := by rw [hv]
  rw [Complex.ofReal_exp, this]
  push_cast
  rfl

lemma integrable_cexp [IsProbabilityMeasure P] (s t : ℝ) :
    Integrable (fun x : ℝ × ℝ => Complex.exp (((s * x.1 + t * x.2 : ℝ) : ℂ) * Complex.I)) P := by
  refine Integrable.of_bound (by fun_prop) 1 (Filter.Eventually.of_forall fun x => ?_)
  rw [Complex.norm_exp_ofReal_mul_I]

lemma _root_.NT.Spec.GaussPair.cos (h : GaussPair P q11 q12 q22) (s t : ℝ) :
    ∫ x, Real.cos (s * x.1 + t * x.2) ∂P = Real.exp (-((s ^ 2 * q11 + 2 * s * t * q12 + t ^ 2 * q22) / 2)) := by
  have := h.gaussian
  have e := congrArg Complex.re (h.char s t)
  have e2 : (∫ x, Complex.exp (((s * x.1 + t * x.2 : ℝ) : ℂ) * Complex.I) ∂P).re =
      ∫ x, (Complex.exp (((s * x.1 + t * x.2 : ℝ) : ℂ) * Complex.I)).re ∂P :=
    (integral_re (𝕜 := ℂ) (integrable_cexp s t)).symm
  rw [e2, Complex.ofReal_re] at e
  rw [← e]
  congr 1
  funext x
  rw [Complex.exp_ofReal_mul_I_re]

lemma _root_.NT.Spec.GaussPair.sin (h : GaussPair P q11 q12 q22) (s t : ℝ) :
    ∫ x, Real.sin (s * x.1 + t * x.2) ∂P = 0 := by
  have := h.gaussian
  have e := congrArg Complex.im (h.char s t)
  have e2 : (∫ x, Complex.exp (((s * x.1 + t * x.2 : ℝ) : ℂ) * Complex.I) ∂P).im =
      ∫ x, (Complex.exp (((s * x.1 + t * x.2 : ℝ) : ℂ) * Complex.I)).im ∂P :=
    (integral_im (𝕜 := ℂ) (integrable_cexp s t)).symm
  rw [e2, Complex.ofReal_im] at e
  rw [← e]
  congr 1
  funext x
  rw [Complex.exp_ofReal_mul_I_im]

/-- `E[cos(s u + t v + c)]`. -/
lemma _root_.NT.Spec.GaussPair.cos_shift (h : GaussPair P q11 q12 q22) (s t c : ℝ) :
    ∫ x, Real.cos (s * x.1 + t * x.2 + c) ∂P =
      Real.exp (-((s ^ 2 * q11 + 2 * s * t * q12 + t ^ 2 * q22) / 2)) * Real.cos c := by
  have := h.gaussian
  have i1 : Integrable (fun x : ℝ × ℝ => Real.cos (s * x.1 + t * x.2)) P :=
    Integrable.of_bound (by fun_prop) 1 (Filter.Eventually.of_forall fun x => by
      rw [Real.norm_eq_abs]; exact Real.abs_cos_le_one _)
  have i2 : Integrable (fun x : ℝ × ℝ => Real.sin (s * x.1 + t * x.2)) P :=
    Integrable.of_bound (by fun_prop) 1 (Filter.Eventually.of_forall fun x => by
      rw [Real.norm_eq_abs]; exact Real.abs_sin_le_one _)
  simp only [Real.cos_add _ c]
  rw [integral_sub (i1.mul_const _) (i2.mul_const _), integral_mul_const, integral_mul_const, h.cos, h.sin]
  ring

end NT.Gauss
