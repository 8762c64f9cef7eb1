import Verif.Lemmas.Elementwise
import Verif.Lemmas.GaussPolar
import Verif.Props.C42

/-!
# C44: `ABRelu`, `Relu`, `LeakyRelu` and `Abs` compute the Gaussian expectations
-/

namespace NT.C44
open NT Arr Kernel Spec MeasureTheory Gauss

/-- The derivative of `a min(x, 0) + b max(x, 0)`; at the kink the mean of the slopes, which is the derivative that JAX
assigns to `minimum` and `maximum` at ties. -/
noncomputable def slope (a b x : ℝ) : ℝ := if x < 0 then a else if 0 < x then b else (a + b) / 2

lemma slope_eq (a b x : ℝ) : slope a b x = (a + b) / 2 + (b - a) / 2 * sg x := by
  rcases lt_trichotomy x 0 with h | rfl | h
  · rw [sg_neg h]; simp [slope, h]; ring
  · simp [slope, sg_zero]
  · rw [sg_pos h]; simp [slope, h, not_lt.2 h.le]; ring

lemma abReluFn_eq (a b x : ℝ) : abReluFn a b x = (a + b) / 2 * x + (b - a) / 2 * |x| := by
  unfold abReluFn
  rcases le_total x 0 with h | h
  · rw [min_eq_left h, max_eq_right h, abs_of_nonpos h]; ring
  · rw [min_eq_right h, max_eq_left h, abs_of_nonneg h]; ring

/-- The angle of the code is the angle between the two variables. -/
lemma reluAngle_eq {q11 q12 q22 θ : ℝ} (h1 : 0 ≤ q11) (h2 : 0 ≤ q22) (t1 : 0 ≤ θ) (t2 : θ ≤ Real.pi)
    (t3 : q12 = Real.sqrt q11 * Real.sqrt q22 * Real.cos θ) (t4 : q11 * q22 = 0 → θ = Real.pi / 2) :
    sqrtTol (q11 * q22 - q12 ^ 2) = Real.sqrt q11 * Real.sqrt q22 * Real.sin θ ∧ reluAngle q12 (q11 * q22) = θ := by
  have hsin : 0 ≤ Real.sin θ := Real.sin_nonneg_of_nonneg_of_le_pi t1 t2
  have e1 : q11 * q22 - q12 ^ 2 = (Real.sqrt q11 * Real.sqrt q22 * Real.sin θ) ^ 2 := by
    have a1 := Real.sq_sqrt h1
    have a2 := Real.sq_sqrt h2
    have a3 := Real.sin_sq_add_cos_sq θ
    rw [t3, mul_pow, mul_pow, mul_pow, mul_pow, a1, a2]
    linear_combination (-(q11 * q22)) * a3
  have e2 : sqrtTol (q11 * q22 - q12 ^ 2) = Real.sqrt q11 * Real.sqrt q22 * Real.sin θ := by
    unfold sqrtTol
    rw [e1, max_eq_left (sq_nonneg _), Real.sqrt_sq (by positivity)]
  refine ⟨e2, ?_⟩
  unfold reluAngle arctan2Fill
  rw [e2]
  by_cases h0 : q11 * q22 = 0
  · have hs : Real.sqrt q11 * Real.sqrt q22 = 0 := by rw [← Real.sqrt_mul h1, h0, Real.sqrt_zero]
    rw [if_pos ⟨by rw [hs, zero_mul], by rw [t3, hs, zero_mul]⟩, t4 h0]
  · have hs : 0 < Real.sqrt q11 * Real.sqrt q22 := by
      rw [← Real.sqrt_mul h1]
      exact Real.sqrt_pos.2 (lt_of_le_of_ne (mul_nonneg h1 h2) (Ne.symm h0))
    rw [if_neg]
    · unfold arctan2
      have e : (⟨q12, Real.sqrt q11 * Real.sqrt q22 * Real.sin θ⟩ : ℂ) =
          ((Real.sqrt q11 * Real.sqrt q22 : ℝ) : ℂ) * (Complex.cos θ + Complex.sin θ * Complex.I) := by
        rw [← Complex.ofReal_cos, ← Complex.ofReal_sin]
        apply Complex.ext
        · rw [Complex.re_ofReal_mul]; simp [t3, -Complex.ofReal_cos, -Complex.ofReal_sin]
        · rw [Complex.im_ofReal_mul]; simp [-Complex.ofReal_cos, -Complex.ofReal_sin]
      rw [e, Complex.arg_mul_cos_add_sin_mul_I hs ⟨by linarith [Real.pi_pos], t2⟩]
    · rintro ⟨g1, g2⟩
      rw [t3] at g2
      have s0 : Real.sin θ = 0 := (mul_eq_zero.1 g1).resolve_left hs.ne'
      have c0 : Real.cos θ = 0 := (mul_eq_zero.1 g2).resolve_left hs.ne'
      have := Real.sin_sq_add_cos_sq θ
      rw [s0, c0] at this
      norm_num at this

lemma sqrtTol_zero : sqrtTol 0 = 0 := by simp [sqrtTol]

lemma integrable_sg {P : Measure (ℝ × ℝ)} [IsProbabilityMeasure P] {f : ℝ × ℝ → ℝ} (hf : Measurable f) :
    Integrable (fun x => sg (f x)) P :=
  Integrable.of_bound (measurable_sg.comp hf).aestronglyMeasurable 1 (Filter.Eventually.of_forall fun x => by
    rw [Real.norm_eq_abs]; exact abs_sg_le _)

lemma integrable_sg2 {P : Measure (ℝ × ℝ)} [IsProbabilityMeasure P] :
    Integrable (fun x : ℝ × ℝ => sg x.1 * sg x.2) P :=
  Integrable.of_bound ((measurable_sg.comp measurable_fst).mul (measurable_sg.comp measurable_snd)).aestronglyMeasurable 1
    (Filter.Eventually.of_forall fun x => by
      rw [Real.norm_eq_abs, abs_mul]; exact mul_le_one₀ (abs_sg_le _) (abs_nonneg _) (abs_sg_le _))

lemma abRelu_exact (a b : ℝ) : (abReluDual a b).Exact (fun v => 0 ≤ v) (abReluFn a b) (slope a b) where
  diag v hv := by
    simp only [abReluDual, id]
    have e : sqrtTol (v * v - v ^ 2) = 0 := by rw [show v * v - v ^ 2 = 0 by ring, sqrtTol_zero]
    unfold reluAngle
    rw [e]
    by_cases h0 : v = 0
    · rw [h0]; simp
    · have : arctan2Fill 0 v (Real.pi / 2) = 0 := by
        unfold arctan2Fill
        rw [if_neg (fun h => h0 h.2)]
        unfold arctan2
        have : (⟨v, 0⟩ : ℂ) = (v : ℂ) := rfl
        rw [this, Complex.arg_ofReal_of_nonneg hv]
      rw [this]
      ring
  nngp {P q11 q12 q22} hP _ _ := by
    have hG := hP.gaussian
    obtain ⟨θ, t1, t2, t3, t4, -, t6⟩ := hP.sign_abs
    obtain ⟨r1, r2⟩ := reluAngle_eq hP.nonneg1 hP.nonneg2 t1 t2 t3 t4
    have m1 := memLp_fst (P := P) 2 (by norm_num)
    have m2 := memLp_snd (P := P) 2 (by norm_num)
    have i12 : Integrable (fun x : ℝ × ℝ => x.1 * x.2) P := m1.integrable_mul m2
    have iab : Integrable (fun x : ℝ × ℝ => |x.1| * |x.2|) P := by
      have := i12.abs
      simpa only [abs_mul] using this
    have icr : Integrable (fun x : ℝ × ℝ => x.1 * |x.2| + |x.1| * x.2) P := by
      have j1 : Integrable (fun x : ℝ × ℝ => x.1 * |x.2|) P := m1.integrable_mul m2.abs
      have j2 : Integrable (fun x : ℝ × ℝ => |x.1| * x.2) P := m1.abs.integrable_mul m2
      exact j1.add j2
    have e : (fun x : ℝ × ℝ => abReluFn a b x.1 * abReluFn a b x.2) = fun x =>
        ((a + b) / 2) ^ 2 * (x.1 * x.2) + (((b - a) / 2) ^ 2 * (|x.1| * |x.2|) +
          (a + b) / 2 * ((b - a) / 2) * (x.1 * |x.2| + |x.1| * x.2)) := by
      funext x
      rw [abReluFn_eq, abReluFn_eq]
      ring
    have hodd : ∫ x, (x.1 * |x.2| + |x.1| * x.2) ∂P = 0 :=
      hP.odd (fun x => x.1 * |x.2| + |x.1| * x.2) (by fun_prop) (fun x => by simp only [abs_neg]; ring)
    rw [e, integral_three i12 iab icr, hodd, hP.cov, t6]
    simp only [abReluDual, id, r1, r2]
    rw [t3]
    field_simp
    ring
  dot {P q11 q12 q22} hP _ _ := by
    have hG := hP.gaussian
    obtain ⟨θ, t1, t2, t3, t4, t5, -⟩ := hP.sign_abs
    obtain ⟨r1, r2⟩ := reluAngle_eq hP.nonneg1 hP.nonneg2 t1 t2 t3 t4
    have e : (fun x : ℝ × ℝ => slope a b x.1 * slope a b x.2) = fun x =>
        ((a + b) / 2) ^ 2 * 1 + (((b - a) / 2) ^ 2 * (sg x.1 * sg x.2) + (a + b) / 2 * ((b - a) / 2) * (sg x.1 + sg x.2)) := by
      funext x
      rw [slope_eq, slope_eq]
      ring
    have hodd : ∫ x, (sg x.1 + sg x.2) ∂P = 0 :=
      hP.odd (fun x => sg x.1 + sg x.2) ((measurable_sg.comp measurable_fst).add (measurable_sg.comp measurable_snd))
        (fun x => by simp only [sg_neg_eq]; ring)
    have hj : Integrable (fun x : ℝ × ℝ => sg x.1 + sg x.2) P :=
      (integrable_sg measurable_fst).add (integrable_sg measurable_snd)
    rw [e, integral_three (integrable_const _) integrable_sg2 hj, hodd, t5]
    simp only [abReluDual, id, r2]
    simp
    field_simp
    ring

/-- `ABRelu(a, b)`: the result stores the expectations for `φ(x) = a min(x, 0) + b max(x, 0)`, including inputs of zero
variance and perfectly correlated inputs. -/
theorem kernel_exact (a b : ℝ) (k : Kernel ℝ) (L : Logical ℝ) (hk : k.Stores L) (hc : L.Closed)
    (hv : L.Vars (fun v => 0 ≤ v)) (hg : k.isGaussian = true) :
    ∃ k' L', abReluKernelFn a b false k = .ok k' ∧ k'.Stores L' ∧ AfterElementwise k k' ∧
      DualOf (fun x => a * min x 0 + b * max x 0) (slope a b) L L' := by
  obtain ⟨k0, h0, h1, h2, h3, h4, h5, -⟩ := (abReluDual a b).kernelFn_ok hk hc hv (abRelu_exact a b).diag
  obtain ⟨k', g1, g2, g3⟩ := elementwise_ok (f := (abReluDual a b).kernelFn) hg h0 h1 h2 h3 h4 h5
  exact ⟨k', _, g1, g2, g3, (abRelu_exact a b).dualOf hc hv⟩

lemma deriv_off_zero (a b x : ℝ) (hx : x ≠ 0) : deriv (fun x => a * min x 0 + b * max x 0) x = slope a b x := by
  rcases lt_or_gt_of_ne hx with h | h
  · have e : (fun x : ℝ => a * min x 0 + b * max x 0) =ᶠ[nhds x] fun x => a * x := by
      filter_upwards [Iio_mem_nhds h] with y hy
      have hy' : y ≤ 0 := le_of_lt hy
      rw [min_eq_left hy', max_eq_right hy']
      ring
    rw [e.deriv_eq]
    simp [slope, h]
  · have e : (fun x : ℝ => a * min x 0 + b * max x 0) =ᶠ[nhds x] fun x => b * x := by
      filter_upwards [Ioi_mem_nhds h] with y hy
      have hy' : 0 ≤ y := le_of_lt hy
      rw [min_eq_right hy', max_eq_left hy']
      ring
    rw [e.deriv_eq]
    simp [slope, h, not_lt.2 h.le]

/-- If the variances are positive, the factor of the tangent kernel is the expectation for the derivative of `φ`, whatever
its value at the kink. -/
theorem kernel_exact_deriv (a b : ℝ) (k : Kernel ℝ) (L : Logical ℝ) (hk : k.Stores L) (hc : L.Closed)
    (hv : L.Vars (fun v => 0 < v)) (hg : k.isGaussian = true) :
    ∃ k' L', abReluKernelFn a b false k = .ok k' ∧ k'.Stores L' ∧
      DualOf (fun x => a * min x 0 + b * max x 0) (deriv fun x => a * min x 0 + b * max x 0) L L' := by
  obtain ⟨k', L', g1, g2, -, g4⟩ := kernel_exact a b k L hk hc
    ⟨fun i p hi hp => (hv.one i p hi hp).le, fun F hF i p hi hp => (hv.two F hF i p hi hp).le⟩ hg
  refine ⟨k', L', g1, g2, g4.dims, g4.k12, g4.k11, g4.k22, ?_⟩
  have h := g4.ntk
  cases e1 : L'.ntk <;> cases e2 : L.ntk <;> rw [e1, e2] at h <;> simp only [OptRel] at h ⊢
  intro i j p q hi hj hp hq P hP
  rw [h i j p q hi hj hp hq P hP]
  congr 1
  have v1 := hv.one i p hi hp
  have v2 := hv.second hc j q hj hq
  refine integral_congr_ae ?_
  filter_upwards [hP.ne_zero1 v1, hP.ne_zero2 v2] with x h1 h2
  rw [deriv_off_zero a b _ h1, deriv_off_zero a b _ h2]

/-- `Relu`: the arc-cosine kernel. -/
theorem relu_exact (k : Kernel ℝ) (L : Logical ℝ) (hk : k.Stores L) (hc : L.Closed) (hv : L.Vars (fun v => 0 ≤ v))
    (hg : k.isGaussian = true) :
    ∃ k' L', reluKernelFn false k = .ok k' ∧ k'.Stores L' ∧ AfterElementwise k k' ∧
      DualOf (fun x => max x 0) (slope 0 1) L L' := by
  have := kernel_exact 0 1 k L hk hc hv hg
  simp only [zero_mul, one_mul, zero_add] at this
  exact this

/-- `LeakyRelu(alpha)`. -/
theorem leaky_relu_exact (alpha : ℝ) (k : Kernel ℝ) (L : Logical ℝ) (hk : k.Stores L) (hc : L.Closed)
    (hv : L.Vars (fun v => 0 ≤ v)) (hg : k.isGaussian = true) :
    ∃ k' L', leakyReluKernelFn alpha false k = .ok k' ∧ k'.Stores L' ∧ AfterElementwise k k' ∧
      DualOf (fun x => if x < 0 then alpha * x else x) (slope alpha 1) L L' := by
  have e : (fun x : ℝ => if x < 0 then alpha * x else x) = fun x => alpha * min x 0 + 1 * max x 0 := by
    funext x
    split
    · rename_i h
      rw [min_eq_left h.le, max_eq_right h.le]
      ring
    · rename_i h
      rw [min_eq_right (not_lt.1 h), max_eq_left (not_lt.1 h)]
      ring
  rw [e]
  exact kernel_exact alpha 1 k L hk hc hv hg

/-- `Abs`. -/
theorem abs_exact (k : Kernel ℝ) (L : Logical ℝ) (hk : k.Stores L) (hc : L.Closed) (hv : L.Vars (fun v => 0 ≤ v))
    (hg : k.isGaussian = true) :
    ∃ k' L', absKernelFn false k = .ok k' ∧ k'.Stores L' ∧ AfterElementwise k k' ∧
      DualOf (fun x => |x|) (fun x => if x < 0 then -1 else if 0 < x then 1 else 0) L L' := by
  have e : (fun x : ℝ => |x|) = fun x => -1 * min x 0 + 1 * max x 0 := by
    funext x
    rcases le_total x 0 with h | h
    · rw [min_eq_left h, max_eq_right h, abs_of_nonpos h]; ring
    · rw [min_eq_right h, max_eq_left h, abs_of_nonneg h]; ring
  have e2 : (fun x : ℝ => if x < 0 then (-1 : ℝ) else if 0 < x then 1 else 0) = slope (-1) 1 := by
    funext x
    simp [slope]
  rw [e, e2]
  exact kernel_exact (-1) 1 k L hk hc hv hg

/-! ### A concrete case -/

/-- Like `C42.exL`; the variances are nonnegative. -/
lemma exL_vars : C42.exL.Vars (fun v => 0 ≤ v) :=
  ⟨fun i p hi hp => (C42.exL_vars.one i p hi hp).le, fun F hF i p hi hp => (C42.exL_vars.two F hF i p hi hp).le⟩

example (db ds rev : Bool) : ∃ k' L', abReluKernelFn 2 3 false { C42.exL.encode db ds rev with isGaussian := true } = .ok k' ∧
    k'.Stores L' ∧ DualOf (fun x => 2 * min x 0 + 3 * max x 0) (slope 2 3) C42.exL L' := by
  obtain ⟨k', L', h1, h2, -, h3⟩ := kernel_exact 2 3 _ C42.exL (C42.exL_stores db ds rev) C42.exL_closed exL_vars rfl
  exact ⟨k', L', h1, h2, h3⟩

example (db ds rev : Bool) : ∃ k' L', abReluKernelFn 2 3 false { C42.exL.encode db ds rev with isGaussian := true } = .ok k' ∧
    k'.Stores L' ∧ DualOf (fun x => 2 * min x 0 + 3 * max x 0) (deriv fun x => 2 * min x 0 + 3 * max x 0) C42.exL L' :=
  kernel_exact_deriv 2 3 _ C42.exL (C42.exL_stores db ds rev) C42.exL_closed C42.exL_vars rfl

example (db ds rev : Bool) : ∃ k' L', reluKernelFn false { C42.exL.encode db ds rev with isGaussian := true } = .ok k' ∧
    k'.Stores L' ∧ DualOf (fun x => max x 0) (slope 0 1) C42.exL L' := by
  obtain ⟨k', L', h1, h2, -, h3⟩ := relu_exact _ C42.exL (C42.exL_stores db ds rev) C42.exL_closed exL_vars rfl
  exact ⟨k', L', h1, h2, h3⟩

example (db ds rev : Bool) : ∃ k' L', leakyReluKernelFn (1 / 10) false { C42.exL.encode db ds rev with isGaussian := true } = .ok k' ∧
    k'.Stores L' ∧ DualOf (fun x => if x < 0 then 1 / 10 * x else x) (slope (1 / 10) 1) C42.exL L' := by
  obtain ⟨k', L', h1, h2, -, h3⟩ := leaky_relu_exact (1 / 10) _ C42.exL (C42.exL_stores db ds rev) C42.exL_closed exL_vars rfl
  exact ⟨k', L', h1, h2, h3⟩

example (db ds rev : Bool) : ∃ k' L', absKernelFn false { C42.exL.encode db ds rev with isGaussian := true } = .ok k' ∧
    k'.Stores L' ∧ DualOf (fun x => |x|) (fun x => if x < 0 then -1 else if 0 < x then 1 else 0) C42.exL L' := by
  obtain ⟨k', L', h1, h2, -, h3⟩ := abs_exact _ C42.exL (C42.exL_stores db ds rev) C42.exL_closed exL_vars rfl
  exact ⟨k', L', h1, h2, h3⟩

/-- The degenerate cases: zero variances and perfectly correlated inputs. -/
noncomputable def degL : Logical ℝ where
  n1 := 2
  n2 := 2
  S1 := []
  S2 := []
  k12 b _ _ := b.getD 0 0 * b.getD 1 0
  k11 b _ _ := b.getD 0 0 * b.getD 1 0
  k22 := none
  ntk := some fun _ _ _ => 1

lemma degL_stores (db ds : Bool) : ({ degL.encode db ds false with isGaussian := true } : Kernel ℝ).Stores degL := by
  have hst := degL.encode_stores db ds false (fun _ => rfl) rfl
  exact ⟨hst.nngp, hst.cov1, hst.cov2, hst.ntk⟩

lemma degL_vars : degL.Vars (fun v => 0 ≤ v) :=
  ⟨fun i p _ _ => by simp only [degL]; positivity, fun F hF i p _ _ => by simp [degL] at hF⟩

example (db ds : Bool) : ∃ k' L', reluKernelFn false { degL.encode db ds false with isGaussian := true } = .ok k' ∧
    k'.Stores L' ∧ DualOf (fun x => max x 0) (slope 0 1) degL L' := by
  obtain ⟨k', L', h1, h2, -, h3⟩ := relu_exact _ degL (degL_stores db ds) (fun _ => ⟨rfl, rfl⟩) degL_vars rfl
  exact ⟨k', L', h1, h2, h3⟩

/-- The pairs of the degenerate case exist, among them one with a zero variance. -/
example (i j : ℕ) : ∃ P, GaussPair P (degL.k11 [i, i] [] []) (degL.k12 [i, j] [] []) (degL.second [j, j] [] []) :=
  GaussPair.exist _ _ _ (by simp only [degL]; positivity) (by simp only [degL, Logical.second, Option.getD_none]; positivity)
    (by simp only [degL, Logical.second, Option.getD_none, List.getD_cons_zero, List.getD_cons_succ]; apply le_of_eq; ring)

end NT.C44
