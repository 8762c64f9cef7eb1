import Verif.Lemmas.GaussPair
import Mathlib.MeasureTheory.Integral.Gamma
import Mathlib.MeasureTheory.Integral.IntervalIntegral.Periodic
import Mathlib.Analysis.SpecialFunctions.Integrals.Basic
import Mathlib.MeasureTheory.Integral.IntervalIntegral.FundThmCalculus

/-!
# Gaussian expectations in polar coordinates
-/

namespace NT.Gauss
open MeasureTheory ProbabilityTheory Spec Set

lemma std2_integral (g : ℝ × ℝ → ℝ) :
    ∫ z, g z ∂std2 = ∫ z : ℝ × ℝ, (2 * Real.pi)⁻¹ * Real.exp (-(z.1 ^ 2 + z.2 ^ 2) / 2) * g z := by
  have h : std2 = (volume : Measure (ℝ × ℝ)).withDensity (fun z => gaussianPDF 0 1 z.1 * gaussianPDF 0 1 z.2) := by
    unfold std2 std
    rw [gaussianReal_of_var_ne_zero 0 one_ne_zero, prod_withDensity (measurable_gaussianPDF 0 1) (measurable_gaussianPDF 0 1)]
    rfl
  have hm : Measurable (fun z : ℝ × ℝ => gaussianPDF 0 1 z.1 * gaussianPDF 0 1 z.2) :=
    ((measurable_gaussianPDF 0 1).comp measurable_fst).mul ((measurable_gaussianPDF 0 1).comp measurable_snd)
  rw [h, integral_withDensity_eq_integral_toReal_smul hm (Filter.Eventually.of_forall fun z =>
    ENNReal.mul_lt_top gaussianPDF_lt_top gaussianPDF_lt_top)]
  congr 1
  funext z
  rw [ENNReal.toReal_mul, toReal_gaussianPDF, toReal_gaussianPDF, smul_eq_mul]
  congr 1
  simp only [gaussianPDFReal, NNReal.coe_one, mul_one, sub_zero]
  have e : -(z.1 ^ 2 + z.2 ^ 2) / 2 = -z.1 ^ 2 / 2 + -z.2 ^ 2 / 2 := by ring
  rw [e, Real.exp_add]
  have hs : (Real.sqrt (2 * Real.pi))⁻¹ * (Real.sqrt (2 * Real.pi))⁻¹ = (2 * Real.pi)⁻¹ := by
    rw [← mul_inv, Real.mul_self_sqrt (by positivity)]
  rw [← hs]
  ring

lemma radial (n : ℕ) : ∫ r in Ioi (0 : ℝ), r ^ (2 * n + 1) * Real.exp (-r ^ 2 / 2) = 2 ^ n * n.factorial := by
  have := integral_rpow_mul_exp_neg_mul_rpow (p := 2) (q := 2 * n + 1) (b := 1 / 2) (by norm_num) (by
    have : (0 : ℝ) ≤ n := by positivity
    linarith) (by norm_num)
  have e1 : ((2 * (n : ℝ) + 1) + 1) / 2 = n + 1 := by ring
  have e2 : -((2 * (n : ℝ) + 1) + 1) / 2 = -((n + 1 : ℕ) : ℝ) := by push_cast; ring
  rw [e1, e2, Real.Gamma_nat_eq_factorial, Real.rpow_neg (by norm_num), Real.rpow_natCast] at this
  have e3 : ((1 / 2 : ℝ) ^ (n + 1))⁻¹ * (1 / 2) = 2 ^ n := by
    rw [pow_succ, one_div, inv_pow, mul_inv, inv_inv, inv_inv]
    ring
  rw [e3] at this
  rw [← this]
  refine setIntegral_congr_fun measurableSet_Ioi fun r hr => ?_
  have hr' : (0 : ℝ) < r := hr
  have e4 : r ^ (2 * (n : ℝ) + 1) = r ^ (2 * n + 1) := by
    rw [← Real.rpow_natCast]
    congr 1
    push_cast
    ring
  have e5 : r ^ (2 : ℝ) = r ^ 2 := by
    rw [← Real.rpow_natCast]
    norm_num
  show r ^ (2 * n + 1) * Real.exp (-r ^ 2 / 2) = r ^ (2 * (n : ℝ) + 1) * Real.exp (-(1 / 2) * r ^ (2 : ℝ))
  rw [e4, e5]
  congr 2
  ring

/-- The expectation of a function that is homogeneous of degree `2 n`. -/
lemma std2_homogeneous (n : ℕ) (g : ℝ × ℝ → ℝ) (h : ℝ → ℝ)
    (hg : ∀ r t, 0 < r → g (r * Real.cos t, r * Real.sin t) = r ^ (2 * n) * h t) :
    ∫ z, g z ∂std2 = 2 ^ n * n.factorial / (2 * Real.pi) * ∫ t in (-Real.pi)..Real.pi, h t := by
  rw [std2_integral, ← integral_comp_polarCoord_symm]
  have hpi : -Real.pi ≤ Real.pi := by linarith [Real.pi_pos]
  rw [intervalIntegral.integral_of_le hpi, ← integral_Ioc_eq_integral_Ioo.symm]
  have e : ∫ p in polarCoord.target, p.1 • ((2 * Real.pi)⁻¹ * Real.exp (-((polarCoord.symm p).1 ^ 2 +
      (polarCoord.symm p).2 ^ 2) / 2) * g (polarCoord.symm p)) =
      ∫ p in Ioi (0 : ℝ) ×ˢ Ioo (-Real.pi) Real.pi, (p.1 ^ (2 * n + 1) * Real.exp (-p.1 ^ 2 / 2)) * ((2 * Real.pi)⁻¹ * h p.2) := by
    rw [polarCoord_target]
    refine setIntegral_congr_fun (measurableSet_Ioi.prod measurableSet_Ioo) fun p hp => ?_
    have hp1 : 0 < p.1 := hp.1
    have hs : polarCoord.symm p = (p.1 * Real.cos p.2, p.1 * Real.sin p.2) := rfl
    simp only [hs, smul_eq_mul]
    rw [hg p.1 p.2 hp1]
    have : (p.1 * Real.cos p.2) ^ 2 + (p.1 * Real.sin p.2) ^ 2 = p.1 ^ 2 := by
      have := Real.sin_sq_add_cos_sq p.2
      nlinarith
    rw [this]
    ring
  rw [e, Measure.volume_eq_prod,
    setIntegral_prod_mul (fun r => r ^ (2 * n + 1) * Real.exp (-r ^ 2 / 2)) (fun t => (2 * Real.pi)⁻¹ * h t), radial,
    integral_const_mul]
  ring

/-- Interval integrals only depend on the open interval. -/
lemma interval_congr {f g : ℝ → ℝ} {a b : ℝ} (hab : a ≤ b) (h : ∀ t, a < t → t < b → f t = g t) :
    ∫ t in a..b, f t = ∫ t in a..b, g t := by
  rw [intervalIntegral.integral_of_le hab, intervalIntegral.integral_of_le hab, integral_Ioc_eq_integral_Ioo,
    integral_Ioc_eq_integral_Ioo]
  exact setIntegral_congr_fun measurableSet_Ioo fun t ht => h t ht.1 ht.2

/-- The sign of a real number. -/
noncomputable def sg (x : ℝ) : ℝ := if x < 0 then -1 else if 0 < x then 1 else 0

lemma sg_pos {x : ℝ} (h : 0 < x) : sg x = 1 := by simp [sg, h, not_lt.2 h.le]

lemma sg_neg {x : ℝ} (h : x < 0) : sg x = -1 := by simp [sg, h]

lemma sg_zero : sg 0 = 0 := by simp [sg]

lemma sg_neg_eq (x : ℝ) : sg (-x) = -sg x := by
  rcases lt_trichotomy x 0 with h | rfl | h
  · rw [sg_neg h, sg_pos (by linarith)]; ring
  · simp [sg_zero]
  · rw [sg_pos h, sg_neg (by linarith)]

lemma sg_mul {c : ℝ} (hc : 0 < c) (x : ℝ) : sg (c * x) = sg x := by
  rcases lt_trichotomy x 0 with h | rfl | h
  · rw [sg_neg h, sg_neg (by nlinarith)]
  · simp [sg_zero]
  · rw [sg_pos h, sg_pos (by positivity)]

lemma abs_eq_sg (x : ℝ) : |x| = x * sg x := by
  rcases lt_trichotomy x 0 with h | rfl | h
  · rw [sg_neg h, abs_of_neg h]; ring
  · simp
  · rw [sg_pos h, abs_of_pos h]; ring

lemma abs_sg_le (x : ℝ) : |sg x| ≤ 1 := by
  rcases lt_trichotomy x 0 with h | rfl | h
  · rw [sg_neg h]; simp
  · simp [sg_zero]
  · rw [sg_pos h]; simp

lemma measurable_sg : Measurable sg :=
  Measurable.ite (measurableSet_lt measurable_id measurable_const) measurable_const
    (Measurable.ite (measurableSet_lt measurable_const measurable_id) measurable_const measurable_const)

/-- The angular integral for a weight of period `π`. -/
lemma angular (θ : ℝ) (h0 : 0 ≤ θ) (h1 : θ ≤ Real.pi) (w : ℝ → ℝ) (hw : Continuous w) (hp : Function.Periodic w Real.pi) :
    ∫ t in (-Real.pi)..Real.pi, w t * (sg (Real.cos t) * sg (Real.cos (t - θ))) =
      2 * ((∫ t in (θ - Real.pi / 2)..(Real.pi / 2), w t) - ∫ t in (-(Real.pi / 2))..(θ - Real.pi / 2), w t) := by
  have hpi := Real.pi_pos
  set f : ℝ → ℝ := fun t => w t * (sg (Real.cos t) * sg (Real.cos (t - θ))) with hf
  have hfm : Measurable f := hw.measurable.mul ((measurable_sg.comp (by fun_prop)).mul (measurable_sg.comp (by fun_prop)))
  have hfp : Function.Periodic f Real.pi := by
    intro t
    simp only [hf]
    rw [hp t, Real.cos_add_pi, show t + Real.pi - θ = t - θ + Real.pi by ring, Real.cos_add_pi, sg_neg_eq, sg_neg_eq]
    ring
  have hfi : ∀ a b, IntervalIntegrable f volume a b := by
    intro a b
    refine (hw.intervalIntegrable a b).mono_fun hfm.aestronglyMeasurable (Filter.Eventually.of_forall fun t => ?_)
    simp only [hf, norm_mul, Real.norm_eq_abs]
    have a1 := abs_sg_le (Real.cos t)
    have a2 := abs_sg_le (Real.cos (t - θ))
    have : |sg (Real.cos t)| * |sg (Real.cos (t - θ))| ≤ 1 := mul_le_one₀ a1 (abs_nonneg _) a2
    nlinarith [abs_nonneg (w t)]
  have e1 : ∫ t in (-Real.pi)..0, f t = ∫ t in (-(Real.pi / 2))..(Real.pi / 2), f t := by
    have := hfp.intervalIntegral_add_eq (-Real.pi) (-(Real.pi / 2))
    rw [show -Real.pi + Real.pi = 0 by ring, show -(Real.pi / 2) + Real.pi = Real.pi / 2 by ring] at this
    exact this
  have e2 : ∫ t in (0)..Real.pi, f t = ∫ t in (-(Real.pi / 2))..(Real.pi / 2), f t := by
    have := hfp.intervalIntegral_add_eq 0 (-(Real.pi / 2))
    rw [zero_add, show -(Real.pi / 2) + Real.pi = Real.pi / 2 by ring] at this
    exact this
  have e3 : ∫ t in (-(Real.pi / 2))..(θ - Real.pi / 2), f t = -∫ t in (-(Real.pi / 2))..(θ - Real.pi / 2), w t := by
    rw [← intervalIntegral.integral_neg]
    refine interval_congr (by linarith) fun t ht1 ht2 => ?_
    have c1 : 0 < Real.cos t := Real.cos_pos_of_mem_Ioo ⟨by linarith, by linarith⟩
    have c2 : Real.cos (t - θ) < 0 := by
      have : 0 < Real.cos (t - θ + Real.pi) := Real.cos_pos_of_mem_Ioo ⟨by linarith, by linarith⟩
      rw [Real.cos_add_pi] at this
      linarith
    simp only [hf, sg_pos c1, sg_neg c2]
    ring
  have e4 : ∫ t in (θ - Real.pi / 2)..(Real.pi / 2), f t = ∫ t in (θ - Real.pi / 2)..(Real.pi / 2), w t := by
    refine interval_congr (by linarith) fun t ht1 ht2 => ?_
    have c1 : 0 < Real.cos t := Real.cos_pos_of_mem_Ioo ⟨by linarith, by linarith⟩
    have c2 : 0 < Real.cos (t - θ) := Real.cos_pos_of_mem_Ioo ⟨by linarith, by linarith⟩
    simp only [hf, sg_pos c1, sg_pos c2]
    ring
  rw [← intervalIntegral.integral_add_adjacent_intervals (hfi (-Real.pi) 0) (hfi 0 Real.pi), e1, e2,
    ← intervalIntegral.integral_add_adjacent_intervals (hfi (-(Real.pi / 2)) (θ - Real.pi / 2)) (hfi (θ - Real.pi / 2) (Real.pi / 2)),
    e3, e4]
  ring

lemma angular_one (θ : ℝ) (h0 : 0 ≤ θ) (h1 : θ ≤ Real.pi) :
    ∫ t in (-Real.pi)..Real.pi, sg (Real.cos t) * sg (Real.cos (t - θ)) = 2 * Real.pi - 4 * θ := by
  have := angular θ h0 h1 (fun _ => 1) continuous_const (fun _ => rfl)
  simp only [one_mul, intervalIntegral.integral_const, smul_eq_mul, mul_one] at this
  rw [this]
  ring

lemma angular_abs (θ : ℝ) (h0 : 0 ≤ θ) (h1 : θ ≤ Real.pi) :
    ∫ t in (-Real.pi)..Real.pi, |Real.cos t * Real.cos (t - θ)| =
      2 * (Real.sin θ + (Real.pi / 2 - θ) * Real.cos θ) := by
  have := angular θ h0 h1 (fun t => Real.cos t * Real.cos (t - θ)) (by fun_prop) (fun t => by
    show Real.cos (t + Real.pi) * Real.cos (t + Real.pi - θ) = _
    rw [Real.cos_add_pi, show t + Real.pi - θ = t - θ + Real.pi by ring, Real.cos_add_pi]
    ring)
  have e : (fun t => |Real.cos t * Real.cos (t - θ)|) =
      fun t => Real.cos t * Real.cos (t - θ) * (sg (Real.cos t) * sg (Real.cos (t - θ))) := by
    funext t
    rw [abs_mul, abs_eq_sg, abs_eq_sg]
    ring
  rw [e, this]
  have hA : ∀ a b, ∫ t in a..b, Real.cos t * Real.cos (t - θ) =
      (Real.sin (2 * b - θ) / 4 + b * Real.cos θ / 2) - (Real.sin (2 * a - θ) / 4 + a * Real.cos θ / 2) := by
    intro a b
    have hd : ∀ t, HasDerivAt (fun t => Real.sin (2 * t - θ) / 4 + t * Real.cos θ / 2) (Real.cos t * Real.cos (t - θ)) t := by
      intro t
      have d1 : HasDerivAt (fun t => Real.sin (2 * t - θ) / 4) (Real.cos (2 * t - θ) * (2 * 1) / 4) t :=
        ((((hasDerivAt_id t).const_mul 2).sub_const θ).sin).div_const 4
      have d2 : HasDerivAt (fun t => t * Real.cos θ / 2) (1 * Real.cos θ / 2) t :=
        ((hasDerivAt_id t).mul_const _).div_const 2
      refine (d1.add d2).congr_deriv ?_
      have e1 : Real.cos (2 * t - θ) = Real.cos t * Real.cos (t - θ) - Real.sin t * Real.sin (t - θ) := by
        rw [← Real.cos_add]
        congr 1
        ring
      have e2 : Real.cos θ = Real.cos t * Real.cos (t - θ) + Real.sin t * Real.sin (t - θ) := by
        rw [← Real.cos_sub]
        congr 1
        ring
      rw [e1, e2]
      ring
    exact intervalIntegral.integral_eq_sub_of_hasDerivAt (fun t _ => hd t)
      (Continuous.intervalIntegrable (by fun_prop) a b)
  rw [hA, hA]
  have s1 : Real.sin (2 * (Real.pi / 2) - θ) = Real.sin θ := by
    rw [show 2 * (Real.pi / 2) - θ = Real.pi - θ by ring, Real.sin_pi_sub]
  have s2 : Real.sin (2 * (θ - Real.pi / 2) - θ) = -Real.sin θ := by
    rw [show 2 * (θ - Real.pi / 2) - θ = θ - Real.pi by ring, Real.sin_sub_pi]
  have s3 : Real.sin (2 * -(Real.pi / 2) - θ) = Real.sin θ := by
    rw [show 2 * -(Real.pi / 2) - θ = -(θ + Real.pi) by ring, Real.sin_neg, Real.sin_add_pi]
    ring
  rw [s1, s2, s3]
  ring

variable {P : Measure (ℝ × ℝ)} {q11 q12 q22 : ℝ}

/-- The expectation of the product of the signs and of the absolute values. -/
lemma _root_.NT.Spec.GaussPair.sign_abs (h : GaussPair P q11 q12 q22) :
    ∃ θ, 0 ≤ θ ∧ θ ≤ Real.pi ∧ q12 = Real.sqrt q11 * Real.sqrt q22 * Real.cos θ ∧ (q11 * q22 = 0 → θ = Real.pi / 2) ∧
      ∫ x, sg x.1 * sg x.2 ∂P = 1 - 2 * θ / Real.pi ∧
      ∫ x, |x.1| * |x.2| ∂P = Real.sqrt q11 * Real.sqrt q22 *
        (2 / Real.pi * (Real.sin θ + (Real.pi / 2 - θ) * Real.cos θ)) := by
  obtain ⟨θ, t1, t2, t3, t4, t5⟩ := h.repr
  have hpi := Real.pi_pos
  refine ⟨θ, t1, t2, t3, t4, ?_, ?_⟩
  · have hm : Measurable fun x : ℝ × ℝ => sg x.1 * sg x.2 :=
      (measurable_sg.comp measurable_fst).mul (measurable_sg.comp measurable_snd)
    rw [t5, integral_map (by fun_prop) hm.aestronglyMeasurable]
    by_cases h0 : q11 * q22 = 0
    · have hz : ∀ z : ℝ × ℝ, sg (Real.sqrt q11 * z.1) * sg (Real.sqrt q22 * (Real.cos θ * z.1 + Real.sin θ * z.2)) = 0 := by
        intro z
        rcases mul_eq_zero.1 h0 with h | h
        · rw [h]; simp [sg_zero]
        · rw [h]; simp [sg_zero]
      rw [show (fun z : ℝ × ℝ => sg (Real.sqrt q11 * z.1) * sg (Real.sqrt q22 * (Real.cos θ * z.1 + Real.sin θ * z.2))) =
        fun _ => 0 from funext hz, integral_zero, t4 h0]
      field_simp
      ring
    · have p1 : 0 < Real.sqrt q11 := Real.sqrt_pos.2 (lt_of_le_of_ne h.nonneg1 fun e => h0 (by rw [← e, zero_mul]))
      have p2 : 0 < Real.sqrt q22 := Real.sqrt_pos.2 (lt_of_le_of_ne h.nonneg2 fun e => h0 (by rw [← e, mul_zero]))
      simp only [sg_mul p1, sg_mul p2]
      rw [std2_homogeneous 0 _ (fun t => sg (Real.cos t) * sg (Real.cos (t - θ))), angular_one θ t1 t2]
      · simp
        field_simp
        ring
      · intro r t hr
        have e : Real.cos θ * (r * Real.cos t) + Real.sin θ * (r * Real.sin t) = r * Real.cos (t - θ) := by
          rw [Real.cos_sub]; ring
        simp only [e, sg_mul hr, mul_zero, pow_zero, one_mul]
  · rw [t5, integral_map (by fun_prop) (by fun_prop)]
    have e : (fun z : ℝ × ℝ => |Real.sqrt q11 * z.1| * |Real.sqrt q22 * (Real.cos θ * z.1 + Real.sin θ * z.2)|) =
        fun z => Real.sqrt q11 * Real.sqrt q22 * |z.1 * (Real.cos θ * z.1 + Real.sin θ * z.2)| := by
      funext z
      rw [abs_mul, abs_mul, abs_mul, abs_of_nonneg (Real.sqrt_nonneg _), abs_of_nonneg (Real.sqrt_nonneg _)]
      ring
    rw [e, integral_const_mul, std2_homogeneous 1 _ (fun t => |Real.cos t * Real.cos (t - θ)|), angular_abs θ t1 t2]
    · simp only [pow_one, Nat.factorial_one, Nat.cast_one, mul_one]
      field_simp
    · intro r t hr
      have e : Real.cos θ * (r * Real.cos t) + Real.sin θ * (r * Real.sin t) = r * Real.cos (t - θ) := by
        rw [Real.cos_sub]; ring
      simp only [e]
      rw [show r * Real.cos t * (r * Real.cos (t - θ)) = r ^ 2 * (Real.cos t * Real.cos (t - θ)) by ring, abs_mul,
        abs_of_nonneg (sq_nonneg r)]

/-- A centred Gaussian pair is symmetric. -/
lemma _root_.NT.Spec.GaussPair.symm_map (h : GaussPair P q11 q12 q22) : P.map (fun x => (-x.1, -x.2)) = P := by
  have := h.map_pair (-1) 0 0 (-1)
  have e : (fun z : ℝ × ℝ => (-1 * z.1 + 0 * z.2, 0 * z.1 + -1 * z.2)) = fun x => (-x.1, -x.2) := by
    funext z; simp
  rw [e] at this
  refine GaussPair.unique (q11 := q11) (q12 := q12) (q22 := q22) ?_ h
  convert this using 1 <;> ring

/-- Odd functions have expectation zero. -/
lemma _root_.NT.Spec.GaussPair.odd (h : GaussPair P q11 q12 q22) (f : ℝ × ℝ → ℝ) (hm : Measurable f)
    (hf : ∀ x : ℝ × ℝ, f (-x.1, -x.2) = -f x) : ∫ x, f x ∂P = 0 := by
  have e : ∫ x, f x ∂P = ∫ x, f x ∂(P.map fun x : ℝ × ℝ => (-x.1, -x.2)) := by rw [h.symm_map]
  rw [integral_map (by fun_prop) hm.aestronglyMeasurable] at e
  simp only [hf, integral_neg] at e
  linarith

/-- A component of positive variance is almost surely not zero. -/
lemma _root_.NT.Spec.GaussPair.ne_zero1 (h : GaussPair P q11 q12 q22) (hv : 0 < q11) : ∀ᵐ x ∂P, x.1 ≠ 0 := by
  have h1 := h.map_lin 1 0
  have e : (1 : ℝ) ^ 2 * q11 + 2 * 1 * 0 * q12 + 0 ^ 2 * q22 = q11 := by ring
  rw [e] at h1
  have hne : q11.toNNReal ≠ 0 := by simpa using hv
  have := nullSingletonClass_gaussianReal (μ := 0) hne
  have hz : (gaussianReal 0 q11.toNNReal) {0} = 0 := measure_singleton 0
  rw [← h1, Measure.map_apply (by fun_prop) (measurableSet_singleton 0)] at hz
  rw [ae_iff]
  convert hz using 2
  ext x
  simp

lemma _root_.NT.Spec.GaussPair.ne_zero2 (h : GaussPair P q11 q12 q22) (hv : 0 < q22) : ∀ᵐ x ∂P, x.2 ≠ 0 := by
  exact ae_of_ae_map (f := Prod.swap) (by fun_prop) (h.swap.ne_zero1 hv)

end NT.Gauss
