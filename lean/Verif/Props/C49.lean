import Verif.Lemmas.Elementwise
import Verif.Lemmas.GaussTilt
import Verif.Props.C42

/-!
# C49: the `Gaussian` layer computes the Gaussian expectations
-/

namespace NT.C49
open NT Arr Kernel Spec MeasureTheory Gauss

lemma tiltDet_pos {P : Measure (ℝ × ℝ)} {q11 q12 q22 b : ℝ} (hP : GaussPair P q11 q12 q22) (h1 : 4 * b * q11 < 1)
    (h2 : 4 * b * q22 < 1) : 0 < 1 - 2 * b * q22 ∧ 0 < tiltDet b q11 q12 q22 := by
  have c := hP.cs
  have n1 := hP.nonneg1
  have n2 := hP.nonneg2
  refine ⟨by linarith, ?_⟩
  unfold tiltDet
  nlinarith [mul_le_mul_of_nonneg_left c (sq_nonneg (2 * b))]

lemma gaussian_exact (b : ℝ) : (gaussianDual b).Exact (fun v => 4 * b * v < 1) (fun x => Real.exp (b * x ^ 2))
    (fun x => 2 * b * x * Real.exp (b * x ^ 2)) where
  diag v hv := by
    simp only [gaussianDual]
    rw [show (1 - 2 * b * v) * (1 - 2 * b * v) - 4 * b ^ 2 * v ^ 2 = 1 - 4 * b * v by ring]
  nngp {P q11 q12 q22} hP h1 h2 := by
    obtain ⟨p1, p2⟩ := tiltDet_pos hP h1 h2
    obtain ⟨P', g, hf⟩ := hP.tilt b p1 p2
    have := g.gaussian
    have h := hf (fun _ => 1) measurable_const
    simp only [one_mul, integral_const, probReal_univ, smul_eq_mul, mul_one] at h
    have e : (fun x : ℝ × ℝ => Real.exp (b * x.1 ^ 2) * Real.exp (b * x.2 ^ 2)) = fun x => Real.exp (b * (x.1 ^ 2 + x.2 ^ 2)) := by
      funext x
      rw [← Real.exp_add]
      congr 1
      ring
    rw [e, h]
    simp only [gaussianDual, sqrtTol]
    rw [show (1 - 2 * b * q11) * (1 - 2 * b * q22) - 4 * b ^ 2 * q12 ^ 2 = tiltDet b q11 q12 q22 from rfl,
      max_eq_left p2.le, one_div]
  dot {P q11 q12 q22} hP h1 h2 := by
    obtain ⟨p1, p2⟩ := tiltDet_pos hP h1 h2
    obtain ⟨P', g, hf⟩ := hP.tilt b p1 p2
    have := g.gaussian
    have h := hf (fun x => 4 * b ^ 2 * (x.1 * x.2)) (by fun_prop)
    rw [integral_const_mul, g.cov] at h
    have e : (fun x : ℝ × ℝ => 2 * b * x.1 * Real.exp (b * x.1 ^ 2) * (2 * b * x.2 * Real.exp (b * x.2 ^ 2))) =
        fun x => 4 * b ^ 2 * (x.1 * x.2) * Real.exp (b * (x.1 ^ 2 + x.2 ^ 2)) := by
      funext x
      have : Real.exp (b * (x.1 ^ 2 + x.2 ^ 2)) = Real.exp (b * x.1 ^ 2) * Real.exp (b * x.2 ^ 2) := by
        rw [← Real.exp_add]
        congr 1
        ring
      rw [this]
      ring
    rw [e, h]
    simp only [gaussianDual, sqrtTol]
    rw [show (1 - 2 * b * q11) * (1 - 2 * b * q22) - 4 * b ^ 2 * q12 ^ 2 = tiltDet b q11 q12 q22 from rfl, max_eq_left p2.le]
    have s : Real.sqrt (tiltDet b q11 q12 q22) ^ 3 = tiltDet b q11 q12 q22 * Real.sqrt (tiltDet b q11 q12 q22) := by
      rw [pow_succ, Real.sq_sqrt p2.le]
    rw [s]
    have := (Real.sqrt_pos.2 p2).ne'
    have := p2.ne'
    field_simp

lemma gaussianFn_deriv (a b : ℝ) : deriv (gaussianFn a b) = fun x => a * (2 * b * x * Real.exp (b * x ^ 2)) := by
  funext x
  have : HasDerivAt (gaussianFn a b) (a * (Real.exp (b * x ^ 2) * (b * (2 * x)))) x := by
    have h1 : HasDerivAt (fun x : ℝ => x ^ 2) (2 * x) x := by simpa using hasDerivAt_pow 2 x
    exact ((h1.const_mul b).exp).const_mul a
  rw [this.deriv]
  ring

/-- `Gaussian(a, b)`: the result stores the expectations for `φ(x) = a exp(b x²)`, if they are finite. -/
theorem kernel_exact (a b : ℝ) (k : Kernel ℝ) (L : Logical ℝ) (hk : k.Stores L) (hc : L.Closed)
    (hv : L.Vars (fun v => 4 * b * v < 1)) (hg : k.isGaussian = true) :
    ∃ k' L', gaussianKernelFn a b k = .ok k' ∧ k'.Stores L' ∧ AfterElementwise k k' ∧
      DualOf (fun x => a * Real.exp (b * x ^ 2)) (deriv fun x => a * Real.exp (b * x ^ 2)) L L' := by
  obtain ⟨k0, h0, h1, h2, h3, h4, h5, -⟩ := (gaussianDual b).kernelFn_ok hk hc hv (gaussian_exact b).diag
  obtain ⟨k', g1, g2, g3⟩ := elementwise_ok (f := fun k => ((gaussianDual b).kernelFn k).map (·.mul a)) hg
    (by rw [h0]; rfl) (C24.stores_map k0 _ h1 (a ^ 2 * ·) (a ^ 2 * ·)) h2 h3 h4 h5
  refine ⟨k', _, g1, g2, g3, ?_⟩
  have := dualOf_scale ((gaussian_exact b).dualOf hc hv) a
  rw [← gaussianFn_deriv a b] at this
  exact this

/-- For `b ≤ 0`, e.g. the default `b = -1`, there is no condition on the variances. -/
theorem kernel_exact_nonpos (a b : ℝ) (hb : b ≤ 0) (k : Kernel ℝ) (L : Logical ℝ) (hk : k.Stores L) (hc : L.Closed)
    (hv : L.Vars (fun v => 0 ≤ v)) (hg : k.isGaussian = true) :
    ∃ k' L', gaussianKernelFn a b k = .ok k' ∧ k'.Stores L' ∧ AfterElementwise k k' ∧
      DualOf (fun x => a * Real.exp (b * x ^ 2)) (deriv fun x => a * Real.exp (b * x ^ 2)) L L' := by
  have h : ∀ v : ℝ, 0 ≤ v → 4 * b * v < 1 := fun v hv => by nlinarith [mul_nonneg (neg_nonneg.2 hb) hv]
  exact kernel_exact a b k L hk hc ⟨fun i p hi hp => h _ (hv.one i p hi hp), fun F hF i p hi hp => h _ (hv.two F hF i p hi hp)⟩ hg

example (db ds rev : Bool) : ∃ k' L', gaussianKernelFn 2 (1 / 10) { C42.exL.encode db ds rev with isGaussian := true } = .ok k' ∧
    k'.Stores L' ∧ DualOf (fun x => 2 * Real.exp (1 / 10 * x ^ 2)) (deriv fun x => 2 * Real.exp (1 / 10 * x ^ 2)) C42.exL L' := by
  obtain ⟨k', L', h1, h2, -, h3⟩ := kernel_exact 2 (1 / 10) _ C42.exL (C42.exL_stores db ds rev) C42.exL_closed
    ⟨fun i p _ _ => by simp [C42.exL]; norm_num, fun F hF i p _ _ => by
      obtain rfl := Option.some.inj hF
      simp
      norm_num⟩ rfl
  exact ⟨k', L', h1, h2, h3⟩

example (db ds rev : Bool) : ∃ k' L', gaussianKernelFn 1 (-1) { C42.exL.encode db ds rev with isGaussian := true } = .ok k' ∧
    k'.Stores L' ∧ DualOf (fun x => 1 * Real.exp (-1 * x ^ 2)) (deriv fun x => 1 * Real.exp (-1 * x ^ 2)) C42.exL L' := by
  obtain ⟨k', L', h1, h2, -, h3⟩ := kernel_exact_nonpos 1 (-1) (by norm_num) _ C42.exL (C42.exL_stores db ds rev) C42.exL_closed
    ⟨fun i p hi hp => (C42.exL_vars.one i p hi hp).le, fun F hF i p hi hp => (C42.exL_vars.two F hF i p hi hp).le⟩ rfl
  exact ⟨k', L', h1, h2, h3⟩

end NT.C49
