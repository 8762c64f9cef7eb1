import Verif.Spec.GaussPair
import Verif.Tac
import Mathlib.Probability.Distributions.Gaussian.CharFun
import Mathlib.Probability.Distributions.Gaussian.HasGaussianLaw.Independence
import Mathlib.MeasureTheory.Measure.CharacteristicFunction.Basic
import Mathlib.Analysis.SpecialFunctions.PolarCoord
import Mathlib.Probability.Moments.Variance

/-!
# Centred Gaussian pairs are linear images of two independent standard normal variables
-/

namespace NT.Gauss
open MeasureTheory ProbabilityTheory Spec

/-- The standard normal law. -/
noncomputable abbrev std : Measure ℝ := gaussianReal 0 1

/-- Two independent standard normal variables. -/
noncomputable abbrev std2 : Measure (ℝ × ℝ) := std.prod std

lemma dual_apply (L : StrongDual ℝ (ℝ × ℝ)) (x : ℝ × ℝ) : L x = L (1, 0) * x.1 + L (0, 1) * x.2 := by
  have : x = x.1 • (1, 0) + x.2 • (0, 1) := by ext <;> simp
  conv_lhs => rw [this]
  rw [map_add, map_smul, map_smul]
  simp only [smul_eq_mul]
  ring

lemma integral_three {Ω : Type*} [MeasurableSpace Ω] {μ : Measure Ω} {f g h : Ω → ℝ} (hf : Integrable f μ) (hg : Integrable g μ)
    (hh : Integrable h μ) (a b c : ℝ) :
    ∫ x, (a * f x + (b * g x + c * h x)) ∂μ = a * ∫ x, f x ∂μ + (b * ∫ x, g x ∂μ + c * ∫ x, h x ∂μ) := by
  have k : Integrable (fun x => b * g x + c * h x) μ := (hg.const_mul b).add (hh.const_mul c)
  rw [integral_add (hf.const_mul a) k, integral_add (hg.const_mul b) (hh.const_mul c), integral_const_mul, integral_const_mul,
    integral_const_mul]

variable {P : Measure (ℝ × ℝ)} {q11 q12 q22 : ℝ}

lemma memLp_fst [IsGaussian P] (p : ENNReal) (hp : p ≠ ⊤) : MemLp (fun x : ℝ × ℝ => x.1) p P :=
  IsGaussian.memLp_dual P (ContinuousLinearMap.fst ℝ ℝ ℝ) p hp

lemma memLp_snd [IsGaussian P] (p : ENNReal) (hp : p ≠ ⊤) : MemLp (fun x : ℝ × ℝ => x.2) p P :=
  IsGaussian.memLp_dual P (ContinuousLinearMap.snd ℝ ℝ ℝ) p hp

lemma _root_.NT.Spec.GaussPair.lin_sq (h : GaussPair P q11 q12 q22) (s t : ℝ) :
    ∫ x, (s * x.1 + t * x.2) ^ 2 ∂P = s ^ 2 * q11 + 2 * s * t * q12 + t ^ 2 * q22 := by
  have := h.gaussian
  have i1 : Integrable (fun x : ℝ × ℝ => x.1 ^ 2) P := (memLp_fst 2 (by simp)).integrable_sq
  have i2 : Integrable (fun x : ℝ × ℝ => x.2 ^ 2) P := (memLp_snd 2 (by simp)).integrable_sq
  have i3 : Integrable (fun x : ℝ × ℝ => x.1 * x.2) P := (memLp_fst 2 (by simp)).integrable_mul (memLp_snd 2 (by simp))
  have e : (fun x : ℝ × ℝ => (s * x.1 + t * x.2) ^ 2) =
      fun x => s ^ 2 * x.1 ^ 2 + (2 * s * t * (x.1 * x.2) + t ^ 2 * x.2 ^ 2) := by
    funext x; ring
  rw [e, integral_three i1 i3 i2, h.var1, h.var2, h.cov]
  ring

lemma _root_.NT.Spec.GaussPair.lin_mean (h : GaussPair P q11 q12 q22) (s t : ℝ) : ∫ x, (s * x.1 + t * x.2) ∂P = 0 := by
  have := h.gaussian
  have i1 : Integrable (fun x : ℝ × ℝ => x.1) P := (memLp_fst 1 (by simp)).integrable le_rfl
  have i2 : Integrable (fun x : ℝ × ℝ => x.2) P := (memLp_snd 1 (by simp)).integrable le_rfl
  rw [integral_add (i1.const_mul _) (i2.const_mul _), integral_const_mul, integral_const_mul, h.mean1, h.mean2]
  ring

/-- The law of a linear combination. -/
lemma _root_.NT.Spec.GaussPair.map_lin (h : GaussPair P q11 q12 q22) (s t : ℝ) :
    P.map (fun x => s * x.1 + t * x.2) = gaussianReal 0 (s ^ 2 * q11 + 2 * s * t * q12 + t ^ 2 * q22).toNNReal := by
  have := h.gaussian
  let L : StrongDual ℝ (ℝ × ℝ) := s • ContinuousLinearMap.fst ℝ ℝ ℝ + t • ContinuousLinearMap.snd ℝ ℝ ℝ
  have hL : (L : ℝ × ℝ → ℝ) = fun x => s * x.1 + t * x.2 := by funext x; rfl
  have e := IsGaussian.map_eq_gaussianReal (μ := P) L
  rw [hL] at e
  have hm : MemLp (fun x : ℝ × ℝ => s * x.1 + t * x.2) 2 P :=
    ((memLp_fst 2 (by simp)).const_mul s).add ((memLp_snd 2 (by simp)).const_mul t)
  rw [e, variance_eq_sub hm]
  simp only [Pi.pow_apply]
  rw [h.lin_mean, h.lin_sq]
  simp

/-- The covariances determine the law. -/
lemma _root_.NT.Spec.GaussPair.unique {Q : Measure (ℝ × ℝ)} (h : GaussPair P q11 q12 q22) (h' : GaussPair Q q11 q12 q22) : P = Q := by
  have := h.gaussian
  have := h'.gaussian
  refine Measure.ext_of_charFunDual ?_
  funext L
  rw [charFunDual_eq_charFun_map_one, charFunDual_eq_charFun_map_one]
  have e : (L : ℝ × ℝ → ℝ) = fun x => L (1, 0) * x.1 + L (0, 1) * x.2 := funext fun x => dual_apply L x
  rw [e, h.map_lin, h'.map_lin]

lemma std_sq : ∫ x, x ^ 2 ∂std = 1 := by
  have := variance_fun_id_gaussianReal (μ := 0) (v := 1)
  rw [variance_eq_sub (X := fun x : ℝ => x) (memLp_id_gaussianReal' 2 (by simp))] at this
  simp only [Pi.pow_apply, integral_id_gaussianReal] at this
  simpa using this

lemma std2_pair : GaussPair std2 1 0 1 := by
  have i : IsGaussian std2 := by
    have h1 : HasGaussianLaw (Prod.fst : ℝ × ℝ → ℝ) std2 := ⟨by
      rw [Measure.map_fst_prod]; simp; infer_instance⟩
    have h2 : HasGaussianLaw (Prod.snd : ℝ × ℝ → ℝ) std2 := ⟨by
      rw [Measure.map_snd_prod]; simp; infer_instance⟩
    have hi : IndepFun (Prod.fst : ℝ × ℝ → ℝ) Prod.snd std2 := indepFun_prod measurable_id measurable_id
    have := (IndepFun.hasGaussianLaw h1 h2 hi).isGaussian_map
    simpa using this
  refine ⟨i, ?_, ?_, ?_, ?_, ?_⟩
  · have := integral_prod_mul (μ := std) (ν := std) (fun x => x) (fun _ => (1 : ℝ))
    simpa using this
  · have := integral_prod_mul (μ := std) (ν := std) (fun _ => (1 : ℝ)) (fun x => x)
    simpa using this
  · have := integral_prod_mul (μ := std) (ν := std) (fun x => x ^ 2) (fun _ => (1 : ℝ))
    simpa [std_sq] using this
  · have := integral_prod_mul (μ := std) (ν := std) (fun x => x) (fun x => x)
    simpa using this
  · have := integral_prod_mul (μ := std) (ν := std) (fun _ => (1 : ℝ)) (fun x => x ^ 2)
    simpa [std_sq] using this

/-- The law of two linear combinations of a Gaussian pair. -/
lemma _root_.NT.Spec.GaussPair.map_pair (h : GaussPair P q11 q12 q22) (a b c d : ℝ) :
    GaussPair (P.map fun z => (a * z.1 + b * z.2, c * z.1 + d * z.2))
      (a ^ 2 * q11 + 2 * a * b * q12 + b ^ 2 * q22)
      (a * c * q11 + (a * d + b * c) * q12 + b * d * q22)
      (c ^ 2 * q11 + 2 * c * d * q12 + d ^ 2 * q22) := by
  have := h.gaussian
  have hm : Measurable (fun z : ℝ × ℝ => (a * z.1 + b * z.2, c * z.1 + d * z.2)) := by fun_prop
  have i1 : Integrable (fun x : ℝ × ℝ => x.1 ^ 2) P := (memLp_fst 2 (by simp)).integrable_sq
  have i2 : Integrable (fun x : ℝ × ℝ => x.2 ^ 2) P := (memLp_snd 2 (by simp)).integrable_sq
  have i3 : Integrable (fun x : ℝ × ℝ => x.1 * x.2) P := (memLp_fst 2 (by simp)).integrable_mul (memLp_snd 2 (by simp))
  refine ⟨?_, ?_, ?_, ?_, ?_, ?_⟩
  · let M : ℝ × ℝ →L[ℝ] ℝ × ℝ :=
      (a • ContinuousLinearMap.fst ℝ ℝ ℝ + b • ContinuousLinearMap.snd ℝ ℝ ℝ).prod
        (c • ContinuousLinearMap.fst ℝ ℝ ℝ + d • ContinuousLinearMap.snd ℝ ℝ ℝ)
    exact isGaussian_map (μ := P) M
  · rw [integral_map hm.aemeasurable (by fun_prop)]; exact h.lin_mean a b
  · rw [integral_map hm.aemeasurable (by fun_prop)]; exact h.lin_mean c d
  · rw [integral_map hm.aemeasurable (by fun_prop)]; exact h.lin_sq a b
  · rw [integral_map hm.aemeasurable (by fun_prop)]
    have e : (fun x : ℝ × ℝ => (a * x.1 + b * x.2) * (c * x.1 + d * x.2)) =
        fun x => a * c * x.1 ^ 2 + ((a * d + b * c) * (x.1 * x.2) + b * d * x.2 ^ 2) := by
      funext x; ring
    rw [e, integral_three i1 i3 i2, h.var1, h.var2, h.cov]
    ring
  · rw [integral_map hm.aemeasurable (by fun_prop)]; exact h.lin_sq c d

/-- Every Gaussian pair is given by an angle. -/
lemma exists_angle (q11 q12 q22 : ℝ) (h1 : 0 ≤ q11) (h2 : 0 ≤ q22) (h : q12 ^ 2 ≤ q11 * q22) :
    ∃ θ, 0 ≤ θ ∧ θ ≤ Real.pi ∧ q12 = Real.sqrt q11 * Real.sqrt q22 * Real.cos θ ∧
      (q11 * q22 = 0 → θ = Real.pi / 2) := by
  by_cases h0 : q11 * q22 = 0
  · refine ⟨Real.pi / 2, by positivity, by linarith [Real.pi_pos], ?_, fun _ => rfl⟩
    rw [h0] at h
    have : q12 = 0 := by nlinarith [sq_nonneg q12]
    rw [this, Real.cos_pi_div_two, mul_zero]
  · have hp : 0 < q11 * q22 := lt_of_le_of_ne (mul_nonneg h1 h2) (Ne.symm h0)
    have hs : 0 < Real.sqrt (q11 * q22) := Real.sqrt_pos.2 hp
    have habs : |q12| ≤ Real.sqrt (q11 * q22) := Real.abs_le_sqrt h
    obtain ⟨hl, hu⟩ := abs_le.1 habs
    refine ⟨Real.arccos (q12 / Real.sqrt (q11 * q22)), Real.arccos_nonneg _, Real.arccos_le_pi _, ?_, fun h' => absurd h' h0⟩
    rw [Real.cos_arccos, ← Real.sqrt_mul h1]
    · field_simp
    · rw [le_div_iff₀ hs]; linarith
    · rw [div_le_one hs]; exact hu

lemma _root_.NT.Spec.GaussPair.nonneg1 (h : GaussPair P q11 q12 q22) : 0 ≤ q11 := by
  rw [← h.var1]; exact integral_nonneg fun x => sq_nonneg _

lemma _root_.NT.Spec.GaussPair.nonneg2 (h : GaussPair P q11 q12 q22) : 0 ≤ q22 := by
  rw [← h.var2]; exact integral_nonneg fun x => sq_nonneg _

lemma _root_.NT.Spec.GaussPair.form_nonneg (h : GaussPair P q11 q12 q22) (s t : ℝ) : 0 ≤ s ^ 2 * q11 + 2 * s * t * q12 + t ^ 2 * q22 := by
  rw [← h.lin_sq]; exact integral_nonneg fun x => sq_nonneg _

/-- Cauchy-Schwarz. -/
lemma _root_.NT.Spec.GaussPair.cs (h : GaussPair P q11 q12 q22) : q12 ^ 2 ≤ q11 * q22 := by
  have h1 := h.nonneg1
  have h2 := h.nonneg2
  rcases eq_or_lt_of_le h1 with e | e
  · have e' := h.form_nonneg (-(q22 + 1) * q12) (q12 ^ 2)
    have := h.form_nonneg ((q22 + 1) * (-q12)) 1
    rw [← e] at this ⊢
    nlinarith [sq_nonneg q12]
  · have := h.form_nonneg (-q12) q11
    nlinarith [sq_nonneg q12]

/-- The pair as linear combination of two independent standard normal variables. -/
lemma _root_.NT.Spec.GaussPair.repr (h : GaussPair P q11 q12 q22) :
    ∃ θ, 0 ≤ θ ∧ θ ≤ Real.pi ∧ q12 = Real.sqrt q11 * Real.sqrt q22 * Real.cos θ ∧ (q11 * q22 = 0 → θ = Real.pi / 2) ∧
      P = std2.map fun z => (Real.sqrt q11 * z.1, Real.sqrt q22 * (Real.cos θ * z.1 + Real.sin θ * z.2)) := by
  obtain ⟨θ, t1, t2, t3, t4⟩ := exists_angle q11 q12 q22 h.nonneg1 h.nonneg2 h.cs
  refine ⟨θ, t1, t2, t3, t4, ?_⟩
  have := std2_pair.map_pair (Real.sqrt q11) 0 (Real.sqrt q22 * Real.cos θ) (Real.sqrt q22 * Real.sin θ)
  have s1 := Real.sq_sqrt h.nonneg1
  have s2 := Real.sq_sqrt h.nonneg2
  have sc := Real.sin_sq_add_cos_sq θ
  have e1 : Real.sqrt q11 ^ 2 * 1 + 2 * Real.sqrt q11 * 0 * 0 + 0 ^ 2 * 1 = q11 := by rw [s1]; ring
  have e2 : Real.sqrt q11 * (Real.sqrt q22 * Real.cos θ) * 1 + (Real.sqrt q11 * (Real.sqrt q22 * Real.sin θ) +
      0 * (Real.sqrt q22 * Real.cos θ)) * 0 + 0 * (Real.sqrt q22 * Real.sin θ) * 1 = q12 := by rw [t3]; ring
  have e3 : (Real.sqrt q22 * Real.cos θ) ^ 2 * 1 + 2 * (Real.sqrt q22 * Real.cos θ) * (Real.sqrt q22 * Real.sin θ) * 0 +
      (Real.sqrt q22 * Real.sin θ) ^ 2 * 1 = q22 := by
    have : (Real.sqrt q22) ^ 2 * (Real.sin θ ^ 2 + Real.cos θ ^ 2) = q22 := by rw [sc, s2, mul_one]
    linarith
  rw [e1, e2, e3] at this
  rw [h.unique this]
  congr 1
  funext z
  ext
  · simp
  · simp; ring

/-- Such a pair exists for every positive semidefinite covariance matrix. -/
lemma _root_.NT.Spec.GaussPair.exist (q11 q12 q22 : ℝ) (h1 : 0 ≤ q11) (h2 : 0 ≤ q22) (h : q12 ^ 2 ≤ q11 * q22) :
    ∃ P, GaussPair P q11 q12 q22 := by
  obtain ⟨θ, t1, t2, t3, t4⟩ := exists_angle q11 q12 q22 h1 h2 h
  have := std2_pair.map_pair (Real.sqrt q11) 0 (Real.sqrt q22 * Real.cos θ) (Real.sqrt q22 * Real.sin θ)
  have s1 := Real.sq_sqrt h1
  have s2 := Real.sq_sqrt h2
  have sc := Real.sin_sq_add_cos_sq θ
  refine ⟨std2.map (fun z => (Real.sqrt q11 * z.1 + 0 * z.2, Real.sqrt q22 * Real.cos θ * z.1 + Real.sqrt q22 * Real.sin θ * z.2)), ?_⟩
  convert this using 1
  · rw [s1]; ring
  · rw [t3]; ring
  · have : (Real.sqrt q22) ^ 2 * (Real.sin θ ^ 2 + Real.cos θ ^ 2) = q22 := by rw [sc, s2, mul_one]
    linarith

/-- The pair in the other order. -/
lemma _root_.NT.Spec.GaussPair.swap (h : GaussPair P q11 q12 q22) : GaussPair (P.map Prod.swap) q22 q12 q11 := by
  have := h.map_pair 0 1 1 0
  have e : (fun z : ℝ × ℝ => (0 * z.1 + 1 * z.2, 1 * z.1 + 0 * z.2)) = Prod.swap := by funext z; ext <;> simp
  rw [e] at this
  convert this using 1 <;> ring

end NT.Gauss
