import Verif.Tac
import Verif.Lemmas.Elementwise
import Verif.Lemmas.GaussStein
import Verif.Lemmas.GaussTilt
import Verif.Props.C46
import Verif.Props.C50

/-!
# C89: the `Gelu` layer computes the Gaussian expectations
-/

namespace NT.C89
open NT Arr Kernel Spec MeasureTheory Gauss

variable {P : Measure (ℝ × ℝ)} {q11 q12 q22 : ℝ}

/-- The distribution function of the standard normal distribution. -/
noncomputable def cdf (x : ℝ) : ℝ := 1 / 2 * (1 + erf (x / Real.sqrt 2))

/-- Its density. -/
noncomputable def pdf (x : ℝ) : ℝ := Real.exp (-x ^ 2 / 2) / Real.sqrt (2 * Real.pi)

lemma pdf_cont : Continuous pdf := by unfold pdf; fun_prop

lemma cdf_cont : Continuous cdf := by
  unfold cdf
  have := continuous_erf
  fun_prop

lemma cdf_deriv (x : ℝ) : HasDerivAt cdf (pdf x) x := by
  have h : HasDerivAt (fun x : ℝ => x / Real.sqrt 2) (1 / Real.sqrt 2) x := (hasDerivAt_id x).div_const _
  have := (((hasDerivAt_erf (x / Real.sqrt 2)).comp x h).const_add 1).const_mul (1 / 2)
  refine this.congr_deriv ?_
  unfold pdf
  have e : -(x / Real.sqrt 2) ^ 2 = -x ^ 2 / 2 := by
    rw [div_pow, Real.sq_sqrt (by norm_num)]
    ring
  have := (Real.sqrt_pos.2 Real.pi_pos).ne'
  rw [e, Real.sqrt_mul (by norm_num)]
  field_simp

lemma pdf_deriv (x : ℝ) : HasDerivAt pdf (-(x * pdf x)) x := by
  have h : HasDerivAt (fun x : ℝ => x ^ 2) (2 * x) x := by simpa using hasDerivAt_pow 2 x
  have := ((h.neg.div_const 2).exp).div_const (Real.sqrt (2 * Real.pi))
  refine this.congr_deriv ?_
  unfold pdf
  simp only [Pi.neg_apply]
  ring

lemma tame_cdf : Tame cdf := .of_bounded cdf_cont.measurable 1 fun x => by
  have := abs_le.1 (abs_erf_le (x / Real.sqrt 2))
  unfold cdf
  rw [abs_le]
  constructor <;> linarith

lemma tame_pdf : Tame pdf := .of_bounded pdf_cont.measurable (1 / Real.sqrt (2 * Real.pi)) fun x => by
  unfold pdf
  rw [abs_of_nonneg (by positivity)]
  exact div_le_div_of_nonneg_right (Real.exp_le_one_iff.2 (by nlinarith [sq_nonneg x])) (Real.sqrt_nonneg _)

/-- The determinant of `I + Q`. -/
noncomputable def det (q11 q12 q22 : ℝ) : ℝ := (q11 + 1) * (q22 + 1) - q12 ^ 2

lemma det_eq : tiltDet (-1 / 2) q11 q12 q22 = det q11 q12 q22 := by
  unfold tiltDet det
  ring

lemma det_pos (hP : GaussPair P q11 q12 q22) : 0 < det q11 q12 q22 := by
  have := hP.cs
  have := hP.nonneg1
  have := hP.nonneg2
  unfold det
  nlinarith

lemma pdf_mul (x y : ℝ) : pdf x * pdf y = 1 / (2 * Real.pi) * Real.exp (-1 / 2 * (x ^ 2 + y ^ 2)) := by
  unfold pdf
  have h : Real.exp (-1 / 2 * (x ^ 2 + y ^ 2)) = Real.exp (-x ^ 2 / 2) * Real.exp (-y ^ 2 / 2) := by
    rw [← Real.exp_add]
    congr 1
    ring
  rw [div_mul_div_comm, Real.mul_self_sqrt (by positivity), h]
  ring

/-- `E[φ(u) φ(v)]` and `E[u φ(u) v φ(v)]` for the density `φ`. -/
lemma pp (hP : GaussPair P q11 q12 q22) : ∫ x, pdf x.1 * pdf x.2 ∂P = 1 / (2 * Real.pi * Real.sqrt (det q11 q12 q22)) ∧
    ∫ x, x.1 * pdf x.1 * (x.2 * pdf x.2) ∂P = q12 / det q11 q12 q22 * (1 / (2 * Real.pi * Real.sqrt (det q11 q12 q22))) := by
  have hd := det_pos hP
  obtain ⟨P', g, hf⟩ := hP.tilt (-1 / 2) (by linarith [hP.nonneg2]) (by rw [det_eq]; exact hd)
  rw [det_eq] at g
  rw [det_eq] at hf
  have := g.gaussian
  have s := (Real.sqrt_pos.2 hd).ne'
  have hpi := Real.pi_ne_zero
  constructor
  · have h := hf (fun _ => 1 / (2 * Real.pi)) measurable_const
    simp only [integral_const, probReal_univ, smul_eq_mul, one_mul] at h
    simp only [pdf_mul]
    rw [h]
    field_simp
  · have h := hf (fun x => 1 / (2 * Real.pi) * (x.1 * x.2)) (by fun_prop)
    rw [integral_const_mul, g.cov] at h
    have e : (fun x : ℝ × ℝ => x.1 * pdf x.1 * (x.2 * pdf x.2)) = fun x => 1 / (2 * Real.pi) * (x.1 * x.2) * Real.exp (-1 / 2 * (x.1 ^ 2 + x.2 ^ 2)) := by
      funext x
      rw [show x.1 * pdf x.1 * (x.2 * pdf x.2) = x.1 * x.2 * (pdf x.1 * pdf x.2) by ring, pdf_mul]
      ring
    rw [e, h]
    field_simp

/-- `E[Φ(u) Φ(v)]`. -/
lemma cc (hP : GaussPair P q11 q12 q22) :
    ∫ x, cdf x.1 * cdf x.2 ∂P = 1 / 4 + arctan2 q12 (sqrtTol (det q11 q12 q22)) / (2 * Real.pi) := by
  have hg := hP.gaussian
  have h2 : Real.sqrt 2 ≠ 0 := by positivity
  have h22 : Real.sqrt 2 ^ 2 = 2 := Real.sq_sqrt (by norm_num)
  have me := continuous_erf.measurable
  have hQ := hP.map_pair (1 / Real.sqrt 2) 0 0 (1 / Real.sqrt 2)
  have hE := C46.erf_exact.nngp hQ hQ.nonneg1 hQ.nonneg2
  rw [integral_map (by fun_prop) (Measurable.aestronglyMeasurable (by fun_prop))] at hE
  have a1 : (1 / Real.sqrt 2) ^ 2 * q11 + 2 * (1 / Real.sqrt 2) * 0 * q12 + 0 ^ 2 * q22 = q11 / 2 := by
    rw [div_pow, h22]; ring
  have a2 : 1 / Real.sqrt 2 * 0 * q11 + (1 / Real.sqrt 2 * (1 / Real.sqrt 2) + 0 * 0) * q12 + 0 * (1 / Real.sqrt 2) * q22 = q12 / 2 := by
    rw [div_mul_div_comm, ← pow_two (Real.sqrt 2), h22]; ring
  have a3 : 0 ^ 2 * q11 + 2 * 0 * (1 / Real.sqrt 2) * q12 + (1 / Real.sqrt 2) ^ 2 * q22 = q22 / 2 := by
    rw [div_pow, h22]; ring
  rw [a1, a2, a3] at hE
  simp only [erfDual] at hE
  rw [show 2 * (q12 / 2) = q12 by ring, show (1 + 2 * (q11 / 2)) * (1 + 2 * (q22 / 2)) - 4 * (q12 / 2) ^ 2 = det q11 q12 q22 by unfold det; ring] at hE
  have te : Tame fun x => erf (x / Real.sqrt 2) := .of_bounded (by fun_prop) 1 fun x => abs_erf_le _
  have i1 := te.integrable (P := P) te
  have i2 := te.integrable (P := P) (Tame.const 1)
  have i3 := (Tame.const 1).integrable (P := P) te
  have o2 : ∫ x : ℝ × ℝ, erf (x.1 / Real.sqrt 2) * 1 ∂P = 0 := hP.odd (fun x => erf (x.1 / Real.sqrt 2) * 1) (by fun_prop) fun x => by
    simp only [neg_div, erf_neg]
    ring
  have o3 : ∫ x : ℝ × ℝ, 1 * erf (x.2 / Real.sqrt 2) ∂P = 0 := hP.odd (fun x => 1 * erf (x.2 / Real.sqrt 2)) (by fun_prop) fun x => by
    simp only [neg_div, erf_neg]
    ring
  have e : (fun x : ℝ × ℝ => cdf x.1 * cdf x.2) = fun x => 1 / 4 * (erf (x.1 / Real.sqrt 2) * erf (x.2 / Real.sqrt 2)) +
      (1 / 4 * (erf (x.1 / Real.sqrt 2) * 1) + 1 / 4 * (1 * erf (x.2 / Real.sqrt 2))) + 1 / 4 := by
    funext x
    unfold cdf
    ring
  have j : Integrable (fun x : ℝ × ℝ => 1 / 4 * (erf (x.1 / Real.sqrt 2) * erf (x.2 / Real.sqrt 2)) +
      (1 / 4 * (erf (x.1 / Real.sqrt 2) * 1) + 1 / 4 * (1 * erf (x.2 / Real.sqrt 2)))) P :=
    (i1.const_mul _).add ((i2.const_mul _).add (i3.const_mul _))
  rw [e, integral_add j (integrable_const _), integral_three i1 i2 i3, o2, o3]
  have e4 : ∫ x : ℝ × ℝ, erf (x.1 / Real.sqrt 2) * erf (x.2 / Real.sqrt 2) ∂P =
      ∫ x : ℝ × ℝ, erf (1 / Real.sqrt 2 * x.1 + 0 * x.2) * erf (0 * x.1 + 1 / Real.sqrt 2 * x.2) ∂P := by
    congr 1
    funext x
    congr 2 <;> ring
  rw [e4, ← hE]
  simp only [integral_const, probReal_univ, smul_eq_mul, one_mul]
  have hpi := Real.pi_ne_zero
  field_simp
  ring

/-- `E[u φ(u) Φ(v)]` and `E[Φ(u) v φ(v)]`. -/
lemma pc (hP : GaussPair P q11 q12 q22) :
    ∫ x, x.1 * (pdf x.1 * cdf x.2) ∂P = q12 / (q11 + 1) * (1 / (2 * Real.pi * Real.sqrt (det q11 q12 q22))) ∧
    ∫ x, x.2 * (cdf x.1 * pdf x.2) ∂P = q12 / (q22 + 1) * (1 / (2 * Real.pi * Real.sqrt (det q11 q12 q22))) := by
  have t := (Tame.id.mul tame_pdf).neg
  have h1 := hP.stein pdf_deriv cdf_deriv tame_pdf t tame_cdf tame_pdf
  have h2 := hP.stein2 cdf_deriv pdf_deriv tame_cdf tame_pdf tame_pdf t
  have n1 := hP.nonneg1
  have n2 := hP.nonneg2
  have p1 : q11 + 1 ≠ 0 := by linarith
  have p2 : q22 + 1 ≠ 0 := by linarith
  rw [(pp hP).1] at h1 h2
  have e1 : ∫ x, -(x.1 * pdf x.1) * cdf x.2 ∂P = -∫ x, x.1 * (pdf x.1 * cdf x.2) ∂P := by
    rw [← integral_neg]
    congr 1
    funext x
    ring
  have e2 : ∫ x, cdf x.1 * -(x.2 * pdf x.2) ∂P = -∫ x, x.2 * (cdf x.1 * pdf x.2) ∂P := by
    rw [← integral_neg]
    congr 1
    funext x
    ring
  rw [e1] at h1
  rw [e2] at h2
  constructor
  · rw [div_mul_eq_mul_div, eq_div_iff p1]
    linarith
  · rw [div_mul_eq_mul_div, eq_div_iff p2]
    linarith

lemma gelu_eq : geluFn = fun x => x * cdf x := rfl

lemma gelu_deriv : deriv geluFn = fun x => cdf x + x * pdf x := by
  funext x
  have : HasDerivAt geluFn _ x := (hasDerivAt_id x).mul (cdf_deriv x)
  rw [this.deriv]
  simp [cdf]

lemma gelu_exact : geluDual.Exact (fun v => 0 ≤ v) geluFn (deriv geluFn) where
  diag := C50.gelu_diag
  nngp {P q11 q12 q22} hP n1 n2 := by
    have hg := hP.gaussian
    have tv := Tame.id.mul tame_cdf
    have dv : ∀ x, HasDerivAt (fun x => x * cdf x) (cdf x + x * pdf x) x := fun x =>
      ((hasDerivAt_id x).mul (cdf_deriv x)).congr_deriv (by simp)
    have tvp := Tame.id.mul tame_pdf
    have h1 := hP.stein cdf_deriv dv tame_cdf tame_pdf tv (tame_cdf.add tvp)
    have h2 := hP.stein2 pdf_deriv cdf_deriv tame_pdf tvp.neg tame_cdf tame_pdf
    have i1 := tame_cdf.integrable (P := P) tame_cdf
    have i2 := tame_cdf.integrable (P := P) tvp
    have e1 : ∫ x, pdf x.1 * (x.2 * cdf x.2) ∂P = ∫ x, x.2 * (pdf x.1 * cdf x.2) ∂P := by
      congr 1
      funext x
      ring
    have e2 : ∫ x, cdf x.1 * (cdf x.2 + x.2 * pdf x.2) ∂P = ∫ x, cdf x.1 * cdf x.2 ∂P + ∫ x, x.2 * (cdf x.1 * pdf x.2) ∂P := by
      rw [← integral_add i1 (i2.congr (Filter.Eventually.of_forall fun x => by ring))]
      congr 1
      funext x
      ring
    have e3 : ∫ x, -(x.1 * pdf x.1) * cdf x.2 ∂P = -∫ x, x.1 * (pdf x.1 * cdf x.2) ∂P := by
      rw [← integral_neg]
      congr 1
      funext x
      ring
    have e0 : ∫ x, geluFn x.1 * geluFn x.2 ∂P = ∫ x, x.1 * (cdf x.1 * (x.2 * cdf x.2)) ∂P := by
      simp only [gelu_eq, mul_assoc]
    have hd := det_pos hP
    have s := (Real.sqrt_pos.2 hd).ne'
    have hpi := Real.pi_ne_zero
    have p1 : q11 + 1 ≠ 0 := by linarith
    have p2 : q22 + 1 ≠ 0 := by linarith
    rw [e0, h1, e1, e2, h2, e3, (pp hP).1, (pc hP).1, (pc hP).2, cc hP]
    simp only [geluDual, id]
    rw [show (q11 + 1) * (q22 + 1) - q12 ^ 2 = det q11 q12 q22 from rfl]
    have hs : sqrtTol (det q11 q12 q22) = Real.sqrt (det q11 q12 q22) := by
      unfold sqrtTol
      rw [max_eq_left hd.le]
    rw [hs]
    generalize arctan2 q12 (Real.sqrt (det q11 q12 q22)) = t
    have hdet : det q11 q12 q22 = (q11 + 1) * (q22 + 1) - q12 ^ 2 := rfl
    generalize Real.sqrt (det q11 q12 q22) = r at s ⊢
    rw [hdet]
    field_simp
    ring
  dot {P q11 q12 q22} hP n1 n2 := by
    have hg := hP.gaussian
    have tvp := Tame.id.mul tame_pdf
    have i1 := tame_cdf.integrable (P := P) tame_cdf
    have i2 := tame_cdf.integrable (P := P) tvp
    have i3 := tvp.integrable (P := P) tame_cdf
    have i4 := tvp.integrable (P := P) tvp
    have i23 : Integrable (fun x : ℝ × ℝ => cdf x.1 * (x.2 * pdf x.2) + x.1 * pdf x.1 * cdf x.2) P := i2.add i3
    have i14 : Integrable (fun x : ℝ × ℝ => cdf x.1 * cdf x.2 + x.1 * pdf x.1 * (x.2 * pdf x.2)) P := i1.add i4
    have e : (fun x : ℝ × ℝ => deriv geluFn x.1 * deriv geluFn x.2) = fun x => (cdf x.1 * cdf x.2 + x.1 * pdf x.1 * (x.2 * pdf x.2)) +
        (cdf x.1 * (x.2 * pdf x.2) + x.1 * pdf x.1 * cdf x.2) := by
      funext x
      rw [gelu_deriv]
      ring
    have e2 : ∫ x, cdf x.1 * (x.2 * pdf x.2) ∂P = ∫ x, x.2 * (cdf x.1 * pdf x.2) ∂P := by
      congr 1
      funext x
      ring
    have e3 : ∫ x, x.1 * pdf x.1 * cdf x.2 ∂P = ∫ x, x.1 * (pdf x.1 * cdf x.2) ∂P := by
      simp only [mul_assoc]
    have hd := det_pos hP
    have s := (Real.sqrt_pos.2 hd).ne'
    have hpi := Real.pi_ne_zero
    have p1 : q11 + 1 ≠ 0 := by linarith
    have p2 : q22 + 1 ≠ 0 := by linarith
    rw [e, integral_add i14 i23, integral_add i1 i4, integral_add i2 i3, e2, e3, (pp hP).2, (pc hP).1, (pc hP).2, cc hP]
    simp only [geluDual, id]
    rw [show (q11 + 1) * (q22 + 1) - q12 ^ 2 = det q11 q12 q22 from rfl]
    have hs : sqrtTol (det q11 q12 q22) = Real.sqrt (det q11 q12 q22) := by
      unfold sqrtTol
      rw [max_eq_left hd.le]
    rw [hs]
    generalize arctan2 q12 (Real.sqrt (det q11 q12 q22)) = t
    have d0 := hd.ne'
    generalize Real.sqrt (det q11 q12 q22) = r at s ⊢
    generalize det q11 q12 q22 = D at d0 ⊢
    field_simp
    ring

/-- `Gelu()`: the result stores the expectations for `φ(x) = x Φ(x)`, the function applied to the activations with `approximate=False`. -/
theorem kernel_exact (k : Kernel ℝ) (L : Logical ℝ) (hk : k.Stores L) (hc : L.Closed) (hv : L.Vars (fun v => 0 ≤ v)) (hg : k.isGaussian = true) :
    ∃ k' L', geluKernelFn k = .ok k' ∧ k'.Stores L' ∧ AfterElementwise k k' ∧ DualOf geluFn (deriv geluFn) L L' := by
  obtain ⟨k0, h0, h1, h2, h3, h4, h5, -⟩ := geluDual.kernelFn_ok hk hc hv gelu_exact.diag
  obtain ⟨k', g1, g2, g3⟩ := elementwise_ok (f := geluDual.kernelFn) hg h0 h1 h2 h3 h4 h5
  exact ⟨k', _, g1, g2, g3, gelu_exact.dualOf hc hv⟩

/-- The function is `x` times the probability that a standard normal variable is at most `x`. -/
theorem apply_eq (x : ℝ) : geluFn x = x * (ProbabilityTheory.gaussianReal 0 1 (Set.Iic x)).toReal := by
  have hp : IsProbabilityMeasure std := by unfold std; infer_instance
  have h : erf (x / Real.sqrt 2) = ∫ z, sg (x + z) ∂std := by
    rw [erf_eq]
    have : Real.sqrt 2 * (x / Real.sqrt 2) = x := by field_simp
    rw [this]
  have hn : std.map (fun z => -z) = std := by
    unfold std
    rw [ProbabilityTheory.gaussianReal_map_neg]
    simp
  have h2 : ∫ z, sg (x + z) ∂std = ∫ z, sg (x - z) ∂std := by
    have hm : Measurable fun z : ℝ => sg (x + z) := measurable_sg.comp (by fun_prop)
    conv_lhs => rw [← hn]
    rw [integral_map (by fun_prop) hm.aestronglyMeasurable]
    rfl
  have h3 : ∫ z, sg (x - z) ∂std = ∫ z, (2 * (Set.Iic x).indicator (fun _ => (1 : ℝ)) z - 1) ∂std := by
    refine integral_congr_ae ?_
    have h0 : ∀ᵐ z ∂std, z ≠ x := by
      have : NullSingletonClass std := by unfold std; exact ProbabilityTheory.nullSingletonClass_gaussianReal one_ne_zero
      exact Measure.ae_ne std x
    filter_upwards [h0] with z hz
    rcases lt_or_gt_of_ne hz with h | h
    · rw [sg_pos (by linarith), Set.indicator_of_mem (show z ∈ Set.Iic x from h.le)]
      norm_num
    · rw [show sg (x - z) = -1 by unfold sg; rw [if_pos (by linarith)], Set.indicator_of_notMem (show z ∉ Set.Iic x from not_le.2 h)]
      norm_num
  have hi : Integrable (fun z => (Set.Iic x).indicator (fun _ => (1 : ℝ)) z) std := (integrable_const (1 : ℝ)).indicator measurableSet_Iic
  rw [h2, h3, integral_sub (hi.const_mul 2) (integrable_const _), integral_const_mul, integral_indicator measurableSet_Iic] at h
  simp only [integral_const, smul_eq_mul, mul_one, Measure.real, Measure.restrict_apply_univ, measure_univ, ENNReal.toReal_one] at h
  unfold geluFn
  rw [h]
  unfold std
  ring


example (db ds rev : Bool) : ∃ k' L', geluKernelFn { C42.exL.encode db ds rev with isGaussian := true } = .ok k' ∧ k'.Stores L' ∧
    DualOf geluFn (deriv geluFn) C42.exL L' := by
  obtain ⟨k', L', h1, h2, -, h3⟩ := kernel_exact _ C42.exL (C42.exL_stores db ds rev) C42.exL_closed
    ⟨fun i p hi hp => (C42.exL_vars.one i p hi hp).le, fun F hF i p hi hp => (C42.exL_vars.two F hF i p hi hp).le⟩ rfl
  exact ⟨k', L', h1, h2, h3⟩

example : geluFn 1 = (ProbabilityTheory.gaussianReal 0 1 (Set.Iic 1)).toReal := by rw [apply_eq, one_mul]

end NT.C89
