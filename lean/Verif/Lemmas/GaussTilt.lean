import Verif.Lemmas.GaussPolar
import Mathlib.MeasureTheory.Measure.Lebesgue.EqHaar

/-!
# Gaussian expectations with a quadratic exponential weight
-/

namespace NT.Gauss
open MeasureTheory ProbabilityTheory Spec Set

/-- A triangular linear change of variables. -/
lemma integral_tri (p q r : ℝ) (hp : p ≠ 0) (hr : r ≠ 0) (g : ℝ × ℝ → ℝ) (hg : Measurable g) :
    ∫ z : ℝ × ℝ, g (p * z.1, q * z.1 + r * z.2) = |p * r|⁻¹ * ∫ z, g z := by
  set f : ℝ × ℝ →ₗ[ℝ] ℝ × ℝ := Matrix.toLin (Module.Basis.finTwoProd ℝ) (Module.Basis.finTwoProd ℝ) !![p, 0; q, r] with hf
  have hdet : LinearMap.det f = p * r := by
    rw [hf, LinearMap.det_toLin, Matrix.det_fin_two_of]
    ring
  have hfx : ∀ z, f z = (p * z.1, q * z.1 + r * z.2) := by
    intro z
    rw [hf, Matrix.toLin_finTwoProd_apply]
    simp
  have hne : LinearMap.det f ≠ 0 := by rw [hdet]; exact mul_ne_zero hp hr
  have hm := Measure.map_linearMap_addHaar_eq_smul_addHaar (volume : Measure (ℝ × ℝ)) hne
  have hfm : Measurable f := by
    have : (f : ℝ × ℝ → ℝ × ℝ) = fun z => (p * z.1, q * z.1 + r * z.2) := funext hfx
    rw [this]
    fun_prop
  calc ∫ z : ℝ × ℝ, g (p * z.1, q * z.1 + r * z.2) = ∫ z, g (f z) := by simp only [hfx]
    _ = ∫ z, g z ∂(Measure.map f volume) := (integral_map hfm.aemeasurable hg.aestronglyMeasurable).symm
    _ = _ := by
      rw [hm, integral_smul_measure, hdet, ENNReal.toReal_ofReal (abs_nonneg _), abs_inv]
      rfl

variable {P : Measure (ℝ × ℝ)} {q11 q12 q22 : ℝ}

/-- The determinant of `I - 2 b Q`. -/
noncomputable def tiltDet (b q11 q12 q22 : ℝ) : ℝ := (1 - 2 * b * q11) * (1 - 2 * b * q22) - 4 * b ^ 2 * q12 ^ 2

/-- Expectations with the weight `exp(b (x² + y²))` are those of another Gaussian pair. -/
lemma _root_.NT.Spec.GaussPair.tilt (h : GaussPair P q11 q12 q22) (b : ℝ) (h2 : 0 < 1 - 2 * b * q22)
    (hd : 0 < tiltDet b q11 q12 q22) :
    ∃ P', GaussPair P' ((q11 - 2 * b * (q11 * q22 - q12 ^ 2)) / tiltDet b q11 q12 q22) (q12 / tiltDet b q11 q12 q22)
        ((q22 - 2 * b * (q11 * q22 - q12 ^ 2)) / tiltDet b q11 q12 q22) ∧
      ∀ f : ℝ × ℝ → ℝ, Measurable f →
        ∫ x, f x * Real.exp (b * (x.1 ^ 2 + x.2 ^ 2)) ∂P = (Real.sqrt (tiltDet b q11 q12 q22))⁻¹ * ∫ x, f x ∂P' := by
  obtain ⟨θ, -, -, t3, -, t5⟩ := h.repr
  set a := Real.sqrt q11 with ha
  set c := Real.sqrt q22 * Real.cos θ with hc
  set d := Real.sqrt q22 * Real.sin θ with hdd
  have ea : a ^ 2 = q11 := Real.sq_sqrt h.nonneg1
  have ecd : c ^ 2 + d ^ 2 = q22 := by
    rw [hc, hdd, mul_pow, mul_pow, Real.sq_sqrt h.nonneg2]
    linear_combination q22 * Real.sin_sq_add_cos_sq θ
  have eac : a * c = q12 := by rw [t3, hc]; ring
  have hP : P = std2.map (fun z => (a * z.1, c * z.1 + d * z.2)) := by
    rw [t5]
    congr 1
    funext z
    rw [hc, hdd]
    congr 1
    ring
  clear_value a c d
  set D := tiltDet b q11 q12 q22 with hD
  have hm : 0 < 1 - 2 * b * d ^ 2 := by
    rcases le_total b 0 with hb | hb
    · nlinarith [sq_nonneg d, mul_nonneg (neg_nonneg.2 hb) (sq_nonneg d)]
    · nlinarith [mul_nonneg hb (sq_nonneg c)]
  set m := 1 - 2 * b * d ^ 2 with hmdef
  have eD : D = (1 - 2 * b * (a ^ 2 + c ^ 2)) * m - 4 * b ^ 2 * c ^ 2 * d ^ 2 := by
    rw [hD, tiltDet, ← ea, ← ecd, ← eac, hmdef]
    ring
  clear_value D m
  have sD : Real.sqrt D ^ 2 = D := Real.sq_sqrt hd.le
  have sm : Real.sqrt m ^ 2 = m := Real.sq_sqrt hm.le
  have pD : 0 < Real.sqrt D := Real.sqrt_pos.2 hd
  have pm : 0 < Real.sqrt m := Real.sqrt_pos.2 hm
  set sd := Real.sqrt D with hsd
  set sq := Real.sqrt m with hsq
  clear_value sd sq
  -- the triangular factor
  set r := sd / sq with hr
  have pr : 0 < r := div_pos pD pm
  set e := -2 * b * c * d / sq with he
  have key : ∀ z : ℝ × ℝ, Real.exp (-(z.1 ^ 2 + z.2 ^ 2) / 2) * Real.exp (b * ((a * z.1) ^ 2 + (c * z.1 + d * z.2) ^ 2)) =
      Real.exp (-((r * z.1) ^ 2 + (e * z.1 + sq * z.2) ^ 2) / 2) := by
    intro z
    rw [← Real.exp_add]
    congr 1
    have e1 : r ^ 2 + e ^ 2 = 1 - 2 * b * (a ^ 2 + c ^ 2) := by
      rw [hr, he, div_pow, div_pow, sm, sD, ← add_div, div_eq_iff hm.ne', eD]
      ring
    have e2 : e * sq = -2 * b * c * d := by rw [he, div_mul_cancel₀ _ pm.ne']
    have e3 : sq ^ 2 = 1 - 2 * b * d ^ 2 := by rw [sm, hmdef]
    linear_combination (-(z.1 ^ 2) / 2) * (-e1) + (-(z.1 * z.2)) * (-e2) + (-(z.2 ^ 2) / 2) * (-e3)
  have er : r ^ 2 = D / m := by rw [hr, div_pow, sm, sD]
  have hee : e / sq = -2 * b * c * d / m := by rw [he, div_div, ← pow_two, sm]
  have hA2 : (c - d * (e / sq)) / r = c / m / r := by
    congr 1
    rw [hee]
    field_simp
    rw [hmdef]
    ring
  set A1 := a / r with hA1
  set A2 := c / m / r with hA2'
  set A3 := d / sq with hA3
  have hP' := std2_pair.map_pair A1 0 A2 A3
  refine ⟨std2.map fun z => (A1 * z.1 + 0 * z.2, A2 * z.1 + A3 * z.2), ?_, ?_⟩
  · have e1 : A1 ^ 2 * 1 + 2 * A1 * 0 * 0 + 0 ^ 2 * 1 = (q11 - 2 * b * (q11 * q22 - q12 ^ 2)) / D := by
      have : A1 ^ 2 = a ^ 2 * m / D := by rw [hA1, div_pow, er]; field_simp
      rw [this, ← ea, ← ecd, ← eac, hmdef]
      ring
    have e2 : A1 * A2 * 1 + (A1 * A3 + 0 * A2) * 0 + 0 * A3 * 1 = q12 / D := by
      have : A1 * A2 = a * c / D := by
        have : A1 * A2 = a * (c / m) / r ^ 2 := by rw [hA1, hA2']; field_simp
        rw [this, er]
        field_simp
      rw [this, eac]
      ring
    have e3 : A2 ^ 2 * 1 + 2 * A2 * A3 * 0 + A3 ^ 2 * 1 = (q22 - 2 * b * (q11 * q22 - q12 ^ 2)) / D := by
      have h1 : A2 ^ 2 = c ^ 2 / (m * D) := by rw [hA2', div_pow, div_pow, er]; field_simp
      have h2 : A3 ^ 2 = d ^ 2 / m := by rw [hA3, div_pow, sm]
      rw [h1, h2, ← ea, ← ecd, ← eac]
      field_simp
      rw [eD, hmdef]
      ring
    rw [e1, e2, e3] at hP'
    exact hP'
  · intro f hf
    have hz : ∀ z : ℝ × ℝ, (a * z.1, c * z.1 + d * z.2) =
        (A1 * (r * z.1) + 0 * (e * z.1 + sq * z.2), A2 * (r * z.1) + A3 * (e * z.1 + sq * z.2)) := by
      intro z
      rw [← hA2, hA1, hA3]
      congr 1
      · field_simp
        ring
      · field_simp
        ring
    rw [hP, integral_map (by fun_prop) (Measurable.aestronglyMeasurable (by fun_prop)), std2_integral,
      integral_map (by fun_prop) (Measurable.aestronglyMeasurable hf), std2_integral]
    have ht := integral_tri r e sq pr.ne' pm.ne' (fun w => (2 * Real.pi)⁻¹ * Real.exp (-(w.1 ^ 2 + w.2 ^ 2) / 2) *
      f (A1 * w.1 + 0 * w.2, A2 * w.1 + A3 * w.2)) (by fun_prop)
    have hrs : |r * sq|⁻¹ = sd⁻¹ := by rw [hr, div_mul_cancel₀ _ pm.ne', abs_of_pos pD]
    rw [hrs] at ht
    rw [← ht]
    congr 1
    funext z
    dsimp only
    rw [← hz z, ← key z]
    ring

end NT.Gauss
