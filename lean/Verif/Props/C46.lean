import Verif.Lemmas.Elementwise
import Verif.Lemmas.GaussErf
import Verif.Props.C42

/-!
# C46: the `Erf` layer computes the Gaussian expectations
-/

namespace NT.C46
open NT Arr Kernel Spec MeasureTheory Gauss

lemma det_pos {P : Measure (ℝ × ℝ)} {q11 q12 q22 : ℝ} (hP : GaussPair P q11 q12 q22) :
    0 < (1 + 2 * q11) * (1 + 2 * q22) - 4 * q12 ^ 2 := by
  have := hP.cs
  have := hP.nonneg1
  have := hP.nonneg2
  nlinarith

lemma erf_exact : erfDual.Exact (fun v => 0 ≤ v) erf (fun x => 2 / Real.sqrt Real.pi * Real.exp (-x ^ 2)) where
  diag v hv := by
    simp only [erfDual]
    congr 1
    unfold sqrtTol arctan2
    have h1 : (1 + 2 * v) * (1 + 2 * v) - 4 * v ^ 2 = 2 ^ 2 * (v + 1 / 4) := by ring
    have h2 : Real.sqrt ((1 + 2 * v) * (1 + 2 * v) - 4 * v ^ 2) = 2 * Real.sqrt (v + 1 / 4) := by
      rw [h1, Real.sqrt_mul (by norm_num), Real.sqrt_sq (by norm_num)]
    rw [max_eq_left (by rw [h1]; positivity), h2]
    have : (⟨2 * Real.sqrt (v + 1 / 4), 2 * v⟩ : ℂ) = ((2 : ℝ) : ℂ) * ⟨Real.sqrt (v + 1 / 4), v⟩ := by
      apply Complex.ext
      · rw [Complex.re_ofReal_mul]
      · rw [Complex.im_ofReal_mul]
    rw [this, Complex.arg_real_mul _ (by norm_num)]
  nngp {P q11 q12 q22} hP _ _ := by
    obtain ⟨θ, t1, t2, t3, t4⟩ := hP.erf_erf
    rw [t4]
    have hpi := Real.pi_pos
    have p1 : 0 < 1 + 2 * q11 := by linarith [hP.nonneg1]
    have p2 : 0 < 1 + 2 * q22 := by linarith [hP.nonneg2]
    have hR : 0 < Real.sqrt (1 + 2 * q11) * Real.sqrt (1 + 2 * q22) := mul_pos (Real.sqrt_pos.2 p1) (Real.sqrt_pos.2 p2)
    have hR2 : (Real.sqrt (1 + 2 * q11) * Real.sqrt (1 + 2 * q22)) ^ 2 = (1 + 2 * q11) * (1 + 2 * q22) := by
      rw [mul_pow, Real.sq_sqrt p1.le, Real.sq_sqrt p2.le]
    set R := Real.sqrt (1 + 2 * q11) * Real.sqrt (1 + 2 * q22) with hRd
    have hs : sqrtTol ((1 + 2 * q11) * (1 + 2 * q22) - 4 * q12 ^ 2) = R * Real.sin θ := by
      unfold sqrtTol
      have : (1 + 2 * q11) * (1 + 2 * q22) - 4 * q12 ^ 2 = (R * Real.sin θ) ^ 2 := by
        rw [← hR2, show 4 * q12 ^ 2 = (2 * q12) ^ 2 by ring, t3]
        linear_combination (-(R ^ 2)) * Real.sin_sq_add_cos_sq θ
      rw [this, max_eq_left (sq_nonneg _), Real.sqrt_sq (mul_nonneg hR.le (Real.sin_nonneg_of_nonneg_of_le_pi t1 t2))]
    have ha : arctan2 (2 * q12) (sqrtTol ((1 + 2 * q11) * (1 + 2 * q22) - 4 * q12 ^ 2)) = Real.pi / 2 - θ := by
      rw [hs, t3]
      unfold arctan2
      have e : (⟨R * Real.sin θ, R * Real.cos θ⟩ : ℂ) =
          (R : ℂ) * (Complex.cos ((Real.pi / 2 - θ : ℝ) : ℂ) + Complex.sin ((Real.pi / 2 - θ : ℝ) : ℂ) * Complex.I) := by
        rw [← Complex.ofReal_cos, ← Complex.ofReal_sin, Real.cos_pi_div_two_sub, Real.sin_pi_div_two_sub]
        apply Complex.ext
        · rw [Complex.re_ofReal_mul]; simp [-Complex.ofReal_cos, -Complex.ofReal_sin]
        · rw [Complex.im_ofReal_mul]; simp [-Complex.ofReal_cos, -Complex.ofReal_sin]
      rw [e, Complex.arg_mul_cos_add_sin_mul_I hR ⟨by linarith, by linarith⟩]
    simp only [erfDual]
    rw [ha]
    field_simp
  dot {P q11 q12 q22} hP _ _ := by
    have hd := det_pos hP
    have ht : tiltDet (-1) q11 q12 q22 = (1 + 2 * q11) * (1 + 2 * q22) - 4 * q12 ^ 2 := by unfold tiltDet; ring
    obtain ⟨P', g, hf⟩ := hP.tilt (-1) (by linarith [hP.nonneg2]) (by rw [ht]; exact hd)
    have := g.gaussian
    have h := hf (fun _ => 4 / Real.pi) measurable_const
    rw [ht] at h
    simp only [integral_const, probReal_univ, smul_eq_mul, one_mul] at h
    have hpi := Real.pi_pos
    have e : (fun x : ℝ × ℝ => 2 / Real.sqrt Real.pi * Real.exp (-x.1 ^ 2) * (2 / Real.sqrt Real.pi * Real.exp (-x.2 ^ 2))) =
        fun x => 4 / Real.pi * Real.exp (-1 * (x.1 ^ 2 + x.2 ^ 2)) := by
      funext x
      have h1 : Real.exp (-1 * (x.1 ^ 2 + x.2 ^ 2)) = Real.exp (-x.1 ^ 2) * Real.exp (-x.2 ^ 2) := by
        rw [← Real.exp_add]
        congr 1
        ring
      have h2 : 4 / Real.pi = 2 / Real.sqrt Real.pi * (2 / Real.sqrt Real.pi) := by
        rw [div_mul_div_comm, Real.mul_self_sqrt hpi.le]
        norm_num
      rw [h1, h2]
      ring
    rw [e, h]
    simp only [erfDual, sqrtTol]
    rw [max_eq_left hd.le]
    have := (Real.sqrt_pos.2 hd).ne'
    field_simp
    norm_num

/-- Adding a constant to an odd bounded function. -/
lemma dualOf_shift {φ dφ : ℝ → ℝ} {L L' : Logical ℝ} (h : DualOf φ dφ L L') (hm : Measurable φ) {M : ℝ} (hb : ∀ x, |φ x| ≤ M)
    (ho : ∀ x, φ (-x) = -φ x) (c : ℝ) :
    DualOf (fun x => φ x + c) dφ L { C24.mapL L' (c ^ 2 + ·) id with ntk := L'.ntk } := by
  have e : ∀ {P : Measure (ℝ × ℝ)} {q11 q12 q22 : ℝ}, GaussPair P q11 q12 q22 →
      ∫ x, (φ x.1 + c) * (φ x.2 + c) ∂P = c ^ 2 + ∫ x, φ x.1 * φ x.2 ∂P := by
    intro P q11 q12 q22 hP
    have := hP.gaussian
    have hM : 0 ≤ M := (abs_nonneg _).trans (hb 0)
    have i1 : Integrable (fun x : ℝ × ℝ => φ x.1 * φ x.2) P := by
      refine Integrable.of_bound (Measurable.aestronglyMeasurable (by fun_prop)) (M * M) (Filter.Eventually.of_forall fun x => ?_)
      rw [Real.norm_eq_abs, abs_mul]
      exact mul_le_mul (hb _) (hb _) (abs_nonneg _) hM
    have i2 : Integrable (fun x : ℝ × ℝ => φ x.1 + φ x.2) P := by
      refine Integrable.of_bound (Measurable.aestronglyMeasurable (by fun_prop)) (M + M) (Filter.Eventually.of_forall fun x => ?_)
      exact (norm_add_le _ _).trans (add_le_add (hb _) (hb _))
    have h0 : ∫ x, (φ x.1 + φ x.2) ∂P = 0 :=
      hP.odd (fun x => φ x.1 + φ x.2) (by fun_prop) (fun x => by simp only [ho]; ring)
    have e' : (fun x : ℝ × ℝ => (φ x.1 + c) * (φ x.2 + c)) = fun x => c ^ 2 * 1 + (1 * (φ x.1 * φ x.2) + c * (φ x.1 + φ x.2)) := by
      funext x
      ring
    rw [e', integral_three (integrable_const _) i1 i2, h0]
    simp
  refine ⟨h.dims, ?_, ?_, ?_, h.ntk⟩
  · intro i j p q hi hj hp hq P hP
    rw [e hP, ← h.k12 i j p q hi hj hp hq P hP]
    rfl
  · intro i j p q hi hj hp hq P hP
    rw [e hP, ← h.k11 i j p q hi hj hp hq P hP]
    rfl
  · have := h.k22
    cases e1 : L'.k22 <;> cases e2 : L.k22 <;> rw [e1, e2] at this <;> simp only [OptRel] at this
    · simp [C24.mapL, e1, OptRel]
    · simp only [C24.mapL, e1, Option.map_some, OptRel]
      intro i j p q hi hj hp hq P hP
      rw [e hP, ← this i j p q hi hj hp hq P hP]

lemma deriv_erfFn (a b c : ℝ) :
    deriv (erfFn a b c) = fun x => a * (b * (2 / Real.sqrt Real.pi * Real.exp (-(b * x) ^ 2))) := by
  funext x
  have : HasDerivAt (erfFn a b c) (a * (2 / Real.sqrt Real.pi * Real.exp (-(b * x) ^ 2) * (b * 1))) x :=
    (((hasDerivAt_erf (b * x)).comp x ((hasDerivAt_id x).const_mul b)).const_mul a).add_const c
  rw [this.deriv]
  ring

/-- `Erf(a, b, c)`: the result stores the expectations for `φ(x) = a erf(b x) + c`. -/
theorem kernel_exact (a b c : ℝ) (k : Kernel ℝ) (L : Logical ℝ) (hk : k.Stores L) (hc : L.Closed)
    (hv : L.Vars (fun v => 0 ≤ v)) (hg : k.isGaussian = true) :
    ∃ k' L', erfKernelFn a b c k = .ok k' ∧ k'.Stores L' ∧ AfterElementwise k k' ∧
      DualOf (fun x => a * erf (b * x) + c) (deriv fun x => a * erf (b * x) + c) L L' := by
  have hkb := C24.stores_map k L hk (b ^ 2 * ·) (b ^ 2 * ·)
  have hcb : (C24.mapL L (b ^ 2 * ·) (b ^ 2 * ·)).Closed := by
    intro h
    simp only [C24.mapL, Option.map_eq_none_iff] at h
    exact hc h
  have hvb : (C24.mapL L (b ^ 2 * ·) (b ^ 2 * ·)).Vars (fun v => 0 ≤ v) := by
    refine ⟨fun i p hi hp => mul_nonneg (sq_nonneg b) (hv.one i p hi hp), fun F hF i p hi hp => ?_⟩
    simp only [C24.mapL, Option.map_eq_some_iff] at hF
    obtain ⟨G, hG, rfl⟩ := hF
    exact mul_nonneg (sq_nonneg b) (hv.two G hG i p hi hp)
  obtain ⟨k0, h0, h1, h2, h3, h4, h5, -⟩ := erfDual.kernelFn_ok hkb hcb hvb erf_exact.diag
  have hsm := C24.stores_map k0 _ h1 (a ^ 2 * ·) (a ^ 2 * ·)
  have hst : ((k0.mul a).add c).Stores { C24.mapL (C24.mapL (erfDual.logical (C24.mapL L (b ^ 2 * ·) (b ^ 2 * ·)))
      (a ^ 2 * ·) (a ^ 2 * ·)) (c ^ 2 + ·) id with
        ntk := (C24.mapL (erfDual.logical (C24.mapL L (b ^ 2 * ·) (b ^ 2 * ·))) (a ^ 2 * ·) (a ^ 2 * ·)).ntk } := by
    have hsa := C24.stores_map (k0.mul a) _ hsm (c ^ 2 + ·) id
    exact ⟨hsa.nngp, hsa.cov1, hsa.cov2, hsm.ntk⟩
  obtain ⟨k', g1, g2, g3⟩ := elementwise_ok (f := fun k => (erfDual.kernelFn (k.mul b)).map fun k => (k.mul a).add c) hg
    (by show (erfDual.kernelFn (k.mul b)).map _ = _; rw [show erfDual.kernelFn (k.mul b) = .ok k0 from h0]; rfl)
    hst (by exact h2) h3 h4 h5
  refine ⟨k', _, g1, g2, g3, ?_⟩
  have hd : DualOf erf (fun x => 2 / Real.sqrt Real.pi * Real.exp (-x ^ 2)) (C24.mapL L (b ^ 2 * ·) (b ^ 2 * ·)) _ :=
    erf_exact.dualOf hcb hvb
  have hs := dualOf_scale (dualOf_scale_in b continuous_erf.measurable (by fun_prop) hd) a
  have hsh := dualOf_shift hs (by have := continuous_erf.measurable; fun_prop) (M := |a|) (fun x => by
    rw [abs_mul]
    exact mul_le_of_le_one_right (abs_nonneg _) (abs_erf_le _)) (fun x => by rw [mul_neg, erf_neg]; ring) c
  rw [← deriv_erfFn a b c] at hsh
  exact hsh

/-- `Sigmoid_like`. -/
theorem sigmoid_like_exact (k : Kernel ℝ) (L : Logical ℝ) (hk : k.Stores L) (hc : L.Closed)
    (hv : L.Vars (fun v => 0 ≤ v)) (hg : k.isGaussian = true) :
    ∃ k' L', sigmoidLikeKernelFn k = .ok k' ∧ k'.Stores L' ∧ AfterElementwise k k' ∧
      DualOf (fun x => 1 / 2 * erf (x / 2.4020563531719796) + 1 / 2) (deriv fun x => 1 / 2 * erf (x / 2.4020563531719796) + 1 / 2) L L' := by
  have := kernel_exact 0.5 (1 / 2.4020563531719796) 0.5 k L hk hc hv hg
  have e : (fun x : ℝ => 1 / 2 * erf (x / 2.4020563531719796) + 1 / 2) = fun x => 0.5 * erf (1 / 2.4020563531719796 * x) + 0.5 := by
    funext x
    rw [show 1 / 2.4020563531719796 * x = x / 2.4020563531719796 by ring]
    norm_num
  rw [e]
  exact this

example (db ds rev : Bool) : ∃ k' L', erfKernelFn 2 3 (1 / 2) { C42.exL.encode db ds rev with isGaussian := true } = .ok k' ∧
    k'.Stores L' ∧ DualOf (fun x => 2 * erf (3 * x) + 1 / 2) (deriv fun x => 2 * erf (3 * x) + 1 / 2) C42.exL L' := by
  obtain ⟨k', L', h1, h2, -, h3⟩ := kernel_exact 2 3 (1 / 2) _ C42.exL (C42.exL_stores db ds rev) C42.exL_closed
    ⟨fun i p hi hp => (C42.exL_vars.one i p hi hp).le, fun F hF i p hi hp => (C42.exL_vars.two F hF i p hi hp).le⟩ rfl
  exact ⟨k', L', h1, h2, h3⟩

example (db ds rev : Bool) : ∃ k' L', sigmoidLikeKernelFn { C42.exL.encode db ds rev with isGaussian := true } = .ok k' ∧
    k'.Stores L' := by
  obtain ⟨k', L', h1, h2, -⟩ := sigmoid_like_exact _ C42.exL (C42.exL_stores db ds rev) C42.exL_closed
    ⟨fun i p hi hp => (C42.exL_vars.one i p hi hp).le, fun F hF i p hi hp => (C42.exL_vars.two F hF i p hi hp).le⟩ rfl
  exact ⟨k', L', h1, h2⟩

end NT.C46
