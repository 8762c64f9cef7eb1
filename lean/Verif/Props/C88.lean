import Verif.Tac
import Verif.Lemmas.Elementwise
import Verif.Lemmas.GaussStein
import Verif.Lemmas.GaussExp
import Verif.Props.C43
import Verif.Props.C49

/-!
# C88: the `Gabor` layer computes the Gaussian expectations
-/

namespace NT.C88
open NT Arr Kernel Spec MeasureTheory Gauss

variable {P : Measure (ℝ × ℝ)} {a b c : ℝ}

lemma tame_sin : Tame Real.sin := .of_bounded Real.measurable_sin 1 Real.abs_sin_le_one
lemma tame_cos : Tame Real.cos := .of_bounded Real.measurable_cos 1 Real.abs_cos_le_one

/-- `E[cos u cos v]` and `E[sin u sin v]`. -/
lemma cc_ss (h : GaussPair P a b c) :
    ∫ x, Real.cos x.1 * Real.cos x.2 ∂P = (Real.exp (-((a - 2 * b + c) / 2)) + Real.exp (-((a + 2 * b + c) / 2))) / 2 ∧
    ∫ x, Real.sin x.1 * Real.sin x.2 ∂P = (Real.exp (-((a - 2 * b + c) / 2)) - Real.exp (-((a + 2 * b + c) / 2))) / 2 := by
  have hg := h.gaussian
  have e1 := h.cos 1 (-1)
  have e2 := h.cos 1 1
  have s1 : (fun x : ℝ × ℝ => Real.cos (1 * x.1 + -1 * x.2)) = fun x => Real.cos x.1 * Real.cos x.2 + Real.sin x.1 * Real.sin x.2 := by
    funext x
    rw [← Real.cos_sub]
    ring_nf
  have s2 : (fun x : ℝ × ℝ => Real.cos (1 * x.1 + 1 * x.2)) = fun x => Real.cos x.1 * Real.cos x.2 - Real.sin x.1 * Real.sin x.2 := by
    funext x
    rw [← Real.cos_add]
    ring_nf
  have i1 := tame_cos.integrable (P := P) tame_cos
  have i2 := tame_sin.integrable (P := P) tame_sin
  rw [s1, integral_add i1 i2, show (1 ^ 2 * a + 2 * 1 * -1 * b + (-1) ^ 2 * c) = a - 2 * b + c by ring] at e1
  rw [s2, integral_sub i1 i2, show (1 ^ 2 * a + 2 * 1 * 1 * b + 1 ^ 2 * c) = a + 2 * b + c by ring] at e2
  constructor <;> linarith

/-- The derivative of the function without its Gaussian factor. -/
noncomputable def w (x : ℝ) : ℝ := Real.cos x - 2 * x * Real.sin x

lemma w_w (h : GaussPair P a b c) : ∫ x, w x.1 * w x.2 ∂P =
    (1 - 2 * (a + c) + 4 * (a * c + b ^ 2)) * ∫ x, Real.cos x.1 * Real.cos x.2 ∂P + 4 * b * (2 - a - c) * ∫ x, Real.sin x.1 * Real.sin x.2 ∂P := by
  have hg := h.gaussian
  have ds := Real.hasDerivAt_sin
  have dc := Real.hasDerivAt_cos
  have dvs : ∀ x : ℝ, HasDerivAt (fun x => x * Real.sin x) (Real.sin x + x * Real.cos x) x := fun x =>
    ((hasDerivAt_id x).mul (ds x)).congr_deriv (by simp)
  have tvs := Tame.id.mul tame_sin
  have tvc := Tame.id.mul tame_cos
  have t2 := tame_sin.add tvc
  have J1 : ∫ x, x.1 * (Real.sin x.1 * Real.cos x.2) ∂P = _ := h.stein ds dc tame_sin tame_cos tame_cos tame_sin.neg
  have J2 : ∫ x, x.2 * (Real.cos x.1 * Real.sin x.2) ∂P = _ := h.stein2 dc ds tame_cos tame_sin.neg tame_sin tame_cos
  have J3 : ∫ x, x.2 * (Real.sin x.1 * Real.cos x.2) ∂P = _ := h.stein2 ds dc tame_sin tame_cos tame_cos tame_sin.neg
  have J4 : ∫ x, x.1 * (Real.sin x.1 * (x.2 * Real.sin x.2)) ∂P = _ := h.stein ds dvs tame_sin tame_cos tvs t2
  have i1 := tame_cos.integrable (P := P) tame_cos
  have i2 := tame_sin.integrable (P := P) tame_sin
  have i3 := tame_sin.integrable (P := P) tvc
  have i4 := tvs.integrable (P := P) tame_cos
  have i5 := tame_cos.integrable (P := P) tvs
  have i6 := tvs.integrable (P := P) tvs
  simp only [neg_mul, mul_neg, integral_neg] at J1 J2 J3
  have k4 : ∫ x, Real.sin x.1 * (Real.sin x.2 + x.2 * Real.cos x.2) ∂P =
      ∫ x, Real.sin x.1 * Real.sin x.2 ∂P + ∫ x, x.2 * (Real.sin x.1 * Real.cos x.2) ∂P := by
    rw [← integral_add i2 (i3.congr (Filter.Eventually.of_forall fun x => by ring))]
    congr 1
    funext x
    ring
  have k5 : ∫ x, Real.cos x.1 * (x.2 * Real.sin x.2) ∂P = ∫ x, x.2 * (Real.cos x.1 * Real.sin x.2) ∂P := by
    congr 1
    funext x
    ring
  rw [k4, k5, J3, J2] at J4
  have e : (fun x : ℝ × ℝ => w x.1 * w x.2) = fun x => Real.cos x.1 * Real.cos x.2 + (-2 * (x.1 * Real.sin x.1 * Real.cos x.2) +
      (-2 * (Real.cos x.1 * (x.2 * Real.sin x.2)) + 4 * (x.1 * Real.sin x.1 * (x.2 * Real.sin x.2)))) := by
    funext x
    unfold w
    ring
  have m4 : ∫ x, x.1 * Real.sin x.1 * Real.cos x.2 ∂P = ∫ x, x.1 * (Real.sin x.1 * Real.cos x.2) ∂P := by simp only [mul_assoc]
  have m6 : ∫ x, x.1 * Real.sin x.1 * (x.2 * Real.sin x.2) ∂P = ∫ x, x.1 * (Real.sin x.1 * (x.2 * Real.sin x.2)) ∂P := by simp only [mul_assoc]
  have f6 : Integrable (fun x : ℝ × ℝ => -2 * (Real.cos x.1 * (x.2 * Real.sin x.2)) + 4 * (x.1 * Real.sin x.1 * (x.2 * Real.sin x.2))) P :=
    (i5.const_mul (-2)).add (i6.const_mul 4)
  have f5 : Integrable (fun x : ℝ × ℝ => -2 * (x.1 * Real.sin x.1 * Real.cos x.2) +
      (-2 * (Real.cos x.1 * (x.2 * Real.sin x.2)) + 4 * (x.1 * Real.sin x.1 * (x.2 * Real.sin x.2)))) P := (i4.const_mul (-2)).add f6
  rw [e]
  rw [integral_add i1 f5, integral_add (i4.const_mul (-2)) f6, integral_add (i5.const_mul (-2)) (i6.const_mul 4), integral_const_mul, integral_const_mul,
    integral_const_mul, m4, m6, k5, J1, J2, J4]
  ring

lemma gaborFn_deriv : deriv gaborFn = fun x => w x * Real.exp (-x ^ 2) := by
  funext x
  have h1 : HasDerivAt (fun x : ℝ => -x ^ 2) (-(2 * x)) x := by
    have : HasDerivAt (fun x : ℝ => x ^ 2) (2 * x) x := by simpa using hasDerivAt_pow 2 x
    exact this.neg
  have : HasDerivAt gaborFn _ x := h1.exp.mul (Real.hasDerivAt_sin x)
  rw [this.deriv]
  unfold w
  ring

lemma gabor_exact : gaborDual.Exact (fun v => 0 ≤ v) gaborFn (deriv gaborFn) where
  diag v hv := by
    simp only [gaborDual, id]
    have h : 0 < 1 + 4 * v := by linarith
    rw [show 2 * (v + v) + 4 * (v * v - v ^ 2) + 1 = 1 + 4 * v by ring, mul_sub, ← Real.exp_add,
      show -(v + v + 4 * (v * v - v ^ 2) + 2 * v) / (2 * (1 + 4 * v)) + 2 * v / (1 + 4 * v) = 0 by field_simp; ring,
      show -(v + v + 4 * (v * v - v ^ 2) + 2 * v) / (2 * (1 + 4 * v)) = -2 * v / (1 + 4 * v) by field_simp; ring, Real.exp_zero, mul_one]
  nngp {P q11 q12 q22} hP h1 h2 := by
    obtain ⟨p1, p2⟩ := C49.tiltDet_pos (b := -1) hP (by linarith) (by linarith)
    obtain ⟨P', g, hf⟩ := hP.tilt (-1) p1 p2
    have h := hf (fun x => Real.sin x.1 * Real.sin x.2) (by fun_prop)
    rw [(cc_ss g).2] at h
    have e : (fun x : ℝ × ℝ => gaborFn x.1 * gaborFn x.2) = fun x => Real.sin x.1 * Real.sin x.2 * Real.exp (-1 * (x.1 ^ 2 + x.2 ^ 2)) := by
      funext x
      unfold gaborFn
      rw [show -1 * (x.1 ^ 2 + x.2 ^ 2) = -x.1 ^ 2 + -x.2 ^ 2 by ring, Real.exp_add]
      ring
    rw [e, h]
    simp only [gaborDual, sqrtTol, id]
    set D := tiltDet (-1) q11 q12 q22 with hD
    have hD' : 2 * (q11 + q22) + 4 * (q11 * q22 - q12 ^ 2) + 1 = D := by rw [hD]; unfold tiltDet; ring
    rw [hD', max_eq_left p2.le, mul_sub, ← Real.exp_add]
    have d0 := p2.ne'
    rw [show -(q11 + q22 + 4 * (q11 * q22 - q12 ^ 2) + 2 * q12) / (2 * D) + 2 * q12 / D =
        -(((q11 - 2 * -1 * (q11 * q22 - q12 ^ 2)) / D - 2 * (q12 / D) + (q22 - 2 * -1 * (q11 * q22 - q12 ^ 2)) / D) / 2) by field_simp; ring,
      show -(q11 + q22 + 4 * (q11 * q22 - q12 ^ 2) + 2 * q12) / (2 * D) =
        -(((q11 - 2 * -1 * (q11 * q22 - q12 ^ 2)) / D + 2 * (q12 / D) + (q22 - 2 * -1 * (q11 * q22 - q12 ^ 2)) / D) / 2) by field_simp; ring]
    have := (Real.sqrt_pos.2 p2).ne'
    field_simp
  dot {P q11 q12 q22} hP h1 h2 := by
    obtain ⟨p1, p2⟩ := C49.tiltDet_pos (b := -1) hP (by linarith) (by linarith)
    obtain ⟨P', g, hf⟩ := hP.tilt (-1) p1 p2
    have h := hf (fun x => w x.1 * w x.2) (by unfold w; fun_prop)
    rw [w_w g, (cc_ss g).1, (cc_ss g).2] at h
    have e : (fun x : ℝ × ℝ => deriv gaborFn x.1 * deriv gaborFn x.2) = fun x => w x.1 * w x.2 * Real.exp (-1 * (x.1 ^ 2 + x.2 ^ 2)) := by
      funext x
      rw [gaborFn_deriv, show -1 * (x.1 ^ 2 + x.2 ^ 2) = -x.1 ^ 2 + -x.2 ^ 2 by ring, Real.exp_add]
      ring
    rw [e, h]
    simp only [gaborDual, id]
    set D := tiltDet (-1) q11 q12 q22 with hD
    have hD' : 2 * (q11 + q22) + 4 * (q11 * q22 - q12 ^ 2) + 1 = D := by rw [hD]; unfold tiltDet; ring
    rw [hD']
    have d0 := p2.ne'
    have r : D ^ (5 / 2 : ℝ) = D ^ 2 * Real.sqrt D := by
      rw [show (5 / 2 : ℝ) = ((2 : ℕ) : ℝ) + 1 / 2 by norm_num, Real.rpow_add p2, Real.rpow_natCast, Real.sqrt_eq_rpow]
    rw [r, mul_add, ← mul_assoc (Real.exp _) (Real.exp _), ← Real.exp_add]
    rw [show -(q11 + q22 + 4 * (q11 * q22 - q12 ^ 2) + 2 * q12) / (2 * D) + 2 * q12 / D =
        -(((q11 - 2 * -1 * (q11 * q22 - q12 ^ 2)) / D - 2 * (q12 / D) + (q22 - 2 * -1 * (q11 * q22 - q12 ^ 2)) / D) / 2) by field_simp; ring,
      show -(q11 + q22 + 4 * (q11 * q22 - q12 ^ 2) + 2 * q12) / (2 * D) =
        -(((q11 - 2 * -1 * (q11 * q22 - q12 ^ 2)) / D + 2 * (q12 / D) + (q22 - 2 * -1 * (q11 * q22 - q12 ^ 2)) / D) / 2) by field_simp; ring]
    generalize Real.exp (-(((q11 - 2 * -1 * (q11 * q22 - q12 ^ 2)) / D - 2 * (q12 / D) + (q22 - 2 * -1 * (q11 * q22 - q12 ^ 2)) / D) / 2)) = E1
    generalize Real.exp (-(((q11 - 2 * -1 * (q11 * q22 - q12 ^ 2)) / D + 2 * (q12 / D) + (q22 - 2 * -1 * (q11 * q22 - q12 ^ 2)) / D) / 2)) = E2
    have s0 := (Real.sqrt_pos.2 p2).ne'
    have c1 : 1 - 2 * ((q11 - 2 * -1 * (q11 * q22 - q12 ^ 2)) / D + (q22 - 2 * -1 * (q11 * q22 - q12 ^ 2)) / D) +
        4 * ((q11 - 2 * -1 * (q11 * q22 - q12 ^ 2)) / D * ((q22 - 2 * -1 * (q11 * q22 - q12 ^ 2)) / D) + (q12 / D) ^ 2) =
        (1 + 2 * (q11 + q22) + 4 * (q12 ^ 2 + q11 * q22)) / D ^ 2 := by
      field_simp
      rw [← hD']
      ring
    have c2 : 4 * (q12 / D) * (2 - (q11 - 2 * -1 * (q11 * q22 - q12 ^ 2)) / D - (q22 - 2 * -1 * (q11 * q22 - q12 ^ 2)) / D) =
        4 * q12 * (4 * (q11 * q22 - q12 ^ 2) + 3 * (q11 + q22) + 2) / D ^ 2 := by
      field_simp
      rw [← hD']
      ring
    rw [c1, c2]
    field_simp
    ring

/-- `Gabor()`: the result stores the expectations for `φ(x) = exp(-x²) sin x`. -/
theorem kernel_exact (k : Kernel ℝ) (L : Logical ℝ) (hk : k.Stores L) (hc : L.Closed) (hv : L.Vars (fun v => 0 ≤ v)) (hg : k.isGaussian = true) :
    ∃ k' L', gaborKernelFn k = .ok k' ∧ k'.Stores L' ∧ AfterElementwise k k' ∧
      DualOf (fun x => Real.exp (-x ^ 2) * Real.sin x) (deriv fun x => Real.exp (-x ^ 2) * Real.sin x) L L' := by
  obtain ⟨k0, h0, h1, h2, h3, h4, h5, -⟩ := gaborDual.kernelFn_ok hk hc hv gabor_exact.diag
  obtain ⟨k', g1, g2, g3⟩ := elementwise_ok (f := gaborDual.kernelFn) hg h0 h1 h2 h3 h4 h5
  exact ⟨k', _, g1, g2, g3, gabor_exact.dualOf hc hv⟩

example (db ds rev : Bool) : ∃ k' L', gaborKernelFn { C42.exL.encode db ds rev with isGaussian := true } = .ok k' ∧ k'.Stores L' ∧
    DualOf (fun x => Real.exp (-x ^ 2) * Real.sin x) (deriv fun x => Real.exp (-x ^ 2) * Real.sin x) C42.exL L' := by
  obtain ⟨k', L', h1, h2, -, h3⟩ := kernel_exact _ C42.exL (C42.exL_stores db ds rev) C42.exL_closed
    ⟨fun i p hi hp => (C42.exL_vars.one i p hi hp).le, fun F hF i p hi hp => (C42.exL_vars.two F hF i p hi hp).le⟩ rfl
  exact ⟨k', L', h1, h2, h3⟩

end NT.C88
