import Verif.Tac
import Verif.Lemmas.GaussStein
import Mathlib.Analysis.Calculus.ParametricIntegral

/-!
# Price's theorem

The derivative of `E[φ(u) φ(v)]` with respect to the covariance of `u` and `v` is `E[φ'(u) φ'(v)]`.
-/

namespace NT.Gauss
open MeasureTheory ProbabilityTheory Spec

/-- The second standard deviation given the first variable. -/
noncomputable def resid (v1 v2 c : ℝ) : ℝ := Real.sqrt (v2 - c ^ 2 / v1)

/-- The pair of covariance `c` as function of two independent variables. -/
noncomputable def chol (v1 v2 c : ℝ) (z : ℝ × ℝ) : ℝ × ℝ := (Real.sqrt v1 * z.1, c / Real.sqrt v1 * z.1 + resid v1 v2 c * z.2)

lemma chol_pair {v1 v2 c : ℝ} (h1 : 0 < v1) (h : c ^ 2 ≤ v1 * v2) : GaussPair (std2.map (chol v1 v2 c)) v1 c v2 := by
  have := std2_pair.map_pair (Real.sqrt v1) 0 (c / Real.sqrt v1) (resid v1 v2 c)
  have s := Real.sq_sqrt h1.le
  have s0 := (Real.sqrt_pos.2 h1).ne'
  have r : resid v1 v2 c ^ 2 = v2 - c ^ 2 / v1 := Real.sq_sqrt (by rw [sub_nonneg, div_le_iff₀ h1, mul_comm]; exact h)
  have e1 : Real.sqrt v1 ^ 2 * 1 + 2 * Real.sqrt v1 * 0 * 0 + 0 ^ 2 * 1 = v1 := by rw [s]; ring
  have e2 : Real.sqrt v1 * (c / Real.sqrt v1) * 1 + (Real.sqrt v1 * resid v1 v2 c + 0 * (c / Real.sqrt v1)) * 0 + 0 * resid v1 v2 c * 1 = c := by
    field_simp
    ring
  have e3 : (c / Real.sqrt v1) ^ 2 * 1 + 2 * (c / Real.sqrt v1) * resid v1 v2 c * 0 + resid v1 v2 c ^ 2 * 1 = v2 := by
    rw [r, div_pow, s]
    ring
  rw [e1, e2, e3] at this
  have e : chol v1 v2 c = fun z => (Real.sqrt v1 * z.1 + 0 * z.2, c / Real.sqrt v1 * z.1 + resid v1 v2 c * z.2) := by
    funext z
    simp [chol]
  rw [e]
  exact this

lemma measurable_chol (v1 v2 c : ℝ) : Measurable (chol v1 v2 c) := by unfold chol; fun_prop

/-- A common bound for tame functions of `a z1 + b z2` with bounded coefficients. -/
lemma Tame.lin_bound {g : ℝ → ℝ} (hg : Tame g) (M : ℝ) (hM : 0 ≤ M) :
    ∃ C n, ∀ a b x y : ℝ, |a| ≤ M → |b| ≤ M → |g (a * x + b * y)| ≤ C * ((1 + |x|) ^ n * (1 + |y|) ^ n) := by
  obtain ⟨-, C, n, hb⟩ := hg
  have c0 := Tame.nonneg hb
  refine ⟨C * (1 + M) ^ n, n, fun a b x y ha hb' => (hb _).trans ?_⟩
  rw [mul_assoc, ← mul_pow, ← mul_pow]
  refine mul_le_mul_of_nonneg_left (pow_le_pow_left₀ (by positivity) ?_ n) c0
  have h1 : |a * x + b * y| ≤ M * |x| + M * |y| := by
    refine (abs_add_le _ _).trans (add_le_add ?_ ?_) <;> rw [abs_mul]
    · exact mul_le_mul_of_nonneg_right ha (abs_nonneg _)
    · exact mul_le_mul_of_nonneg_right hb' (abs_nonneg _)
  have h2 : 0 ≤ |x| * |y| := by positivity
  have h3 : 0 ≤ M * (|x| * |y|) := by positivity
  nlinarith [abs_nonneg x, abs_nonneg y]

lemma tame_pow_abs (n : ℕ) : Tame fun x => (1 + |x|) ^ n :=
  ⟨by fun_prop, 1, n, fun x => by rw [abs_of_nonneg (by positivity), one_mul]⟩

variable {v1 v2 : ℝ}

lemma hasDerivAt_resid {c : ℝ} (h1 : 0 < v1) (h : c ^ 2 < v1 * v2) : HasDerivAt (resid v1 v2) (-(c / v1) / resid v1 v2 c) c := by
  have hp : 0 < v2 - c ^ 2 / v1 := by rw [sub_pos, div_lt_iff₀ h1, mul_comm]; exact h
  have h2 : HasDerivAt (fun c : ℝ => c ^ 2) (2 * c) c := by simpa using hasDerivAt_pow 2 c
  have h3 : HasDerivAt (fun c : ℝ => v2 - c ^ 2 / v1) (-(2 * c / v1)) c := (h2.div_const v1).const_sub v2
  have := h3.sqrt hp.ne'
  refine this.congr_deriv ?_
  unfold resid
  have := (Real.sqrt_pos.2 hp).ne'
  field_simp

/-- The expectation as integral over two independent variables. -/
lemma integral_chol {f : ℝ × ℝ → ℝ} (hf : Measurable f) (v1 v2 c : ℝ) : ∫ x, f x ∂(std2.map (chol v1 v2 c)) = ∫ z, f (chol v1 v2 c z) ∂std2 :=
  integral_map (measurable_chol v1 v2 c).aemeasurable hf.aestronglyMeasurable

/-- Expectations of tame functions depend continuously on the covariance. -/
lemma continuous_expect {g h : ℝ → ℝ} (cg : Continuous g) (ch : Continuous h) (tg : Tame g) (th : Tame h) :
    Continuous fun c => ∫ z, g (chol v1 v2 c z).1 * h (chol v1 v2 c z).2 ∂std2 := by
  have hs := std2_pair.gaussian
  refine continuous_iff_continuousAt.2 fun c0 => ?_
  have hr : Continuous (resid v1 v2) := by unfold resid; fun_prop
  obtain ⟨M, hM, hb⟩ : ∃ M, 0 ≤ M ∧ ∀ᶠ c in nhds c0, |c / Real.sqrt v1| ≤ M ∧ |resid v1 v2 c| ≤ M := by
    refine ⟨max (|c0 / Real.sqrt v1| + 1) (|resid v1 v2 c0| + 1), le_max_of_le_left (by positivity), ?_⟩
    have k1 : Continuous fun c : ℝ => |c / Real.sqrt v1| := by fun_prop
    have k2 : Continuous fun c : ℝ => |resid v1 v2 c| := by fun_prop
    filter_upwards [k1.continuousAt.eventually_lt continuousAt_const (lt_add_one |c0 / Real.sqrt v1|),
      k2.continuousAt.eventually_lt continuousAt_const (lt_add_one |resid v1 v2 c0|)] with c r1 r2
    exact ⟨r1.le.trans (le_max_left _ _), r2.le.trans (le_max_right _ _)⟩
  obtain ⟨C, n, hC⟩ := th.lin_bound M hM
  have t1 : Tame fun x => g (Real.sqrt v1 * x) := by
    obtain ⟨D, m, hD⟩ := tg.lin_bound |Real.sqrt v1| (abs_nonneg _)
    exact ⟨tg.meas.comp (by fun_prop), D, m, fun x => by simpa using hD (Real.sqrt v1) 0 x 0 le_rfl (by simp)⟩
  have gi : Integrable (fun z : ℝ × ℝ => |g (Real.sqrt v1 * z.1) * (C * (1 + |z.1|) ^ n)| * (1 + |z.2|) ^ n) std2 := by
    have := ((t1.mul ((Tame.const C).mul (tame_pow_abs n))).integrable (P := std2) (tame_pow_abs n)).norm
    refine this.congr (Filter.Eventually.of_forall fun z => ?_)
    simp only [Real.norm_eq_abs, abs_mul, abs_pow]
    rw [abs_of_nonneg (a := 1 + |z.2|) (by positivity)]
  refine continuousAt_of_dominated (bound := fun z => |g (Real.sqrt v1 * z.1) * (C * (1 + |z.1|) ^ n)| * (1 + |z.2|) ^ n) ?_ ?_ gi ?_
  · refine Filter.Eventually.of_forall fun c => Measurable.aestronglyMeasurable ?_
    have := measurable_chol v1 v2 c
    exact (cg.measurable.comp (measurable_fst.comp this)).mul (ch.measurable.comp (measurable_snd.comp this))
  · filter_upwards [hb] with c hc
    refine Filter.Eventually.of_forall fun z => ?_
    have := hC _ _ z.1 z.2 hc.1 hc.2
    rw [Real.norm_eq_abs, abs_mul, abs_mul, mul_assoc]
    refine mul_le_mul_of_nonneg_left (this.trans ?_) (abs_nonneg _)
    rw [← mul_assoc]
    exact mul_le_mul_of_nonneg_right (le_abs_self _) (by positivity)
  · refine Filter.Eventually.of_forall fun z => ?_
    simp only [chol]
    have : Continuous fun c => g (Real.sqrt v1 * z.1) * h (c / Real.sqrt v1 * z.1 + resid v1 v2 c * z.2) := by fun_prop
    exact this.continuousAt

/-- Price's theorem inside the domain. -/
lemma price {φ φ' φ'' : ℝ → ℝ} (d1 : ∀ x, HasDerivAt φ (φ' x) x) (d2 : ∀ x, HasDerivAt φ' (φ'' x) x) (t0 : Tame φ) (t1 : Tame φ') (t2 : Tame φ'')
    {c : ℝ} (h1 : 0 < v1) (h : c ^ 2 < v1 * v2) :
    HasDerivAt (fun c => ∫ z, φ (chol v1 v2 c z).1 * φ (chol v1 v2 c z).2 ∂std2) (∫ z, φ' (chol v1 v2 c z).1 * φ' (chol v1 v2 c z).2 ∂std2) c := by
  have hs := std2_pair.gaussian
  have cφ : Continuous φ := continuous_iff_continuousAt.2 fun x => (d1 x).continuousAt
  have cφ' : Continuous φ' := continuous_iff_continuousAt.2 fun x => (d2 x).continuousAt
  have hr : Continuous (resid v1 v2) := by unfold resid; fun_prop
  have hres : 0 < resid v1 v2 c := Real.sqrt_pos.2 (by rw [sub_pos, div_lt_iff₀ h1, mul_comm]; exact h)
  -- a neighbourhood in which everything is bounded
  obtain ⟨M, hM, s, hs0, hb⟩ : ∃ M, 0 ≤ M ∧ ∃ s ∈ nhds c, ∀ x ∈ s, x ^ 2 < v1 * v2 ∧ |x / Real.sqrt v1| ≤ M ∧ |resid v1 v2 x| ≤ M ∧
      |-(x / v1) / resid v1 v2 x| ≤ M := by
    refine ⟨max (|c / Real.sqrt v1| + 1) (max (|resid v1 v2 c| + 1) (|-(c / v1) / resid v1 v2 c| + 1)), le_max_of_le_left (by positivity), _, ?_,
      fun x hx => hx⟩
    have k1 : Continuous fun c : ℝ => |c / Real.sqrt v1| := by fun_prop
    have k2 : Continuous fun c : ℝ => |resid v1 v2 c| := by fun_prop
    have k3 : ContinuousAt (fun c : ℝ => |-(c / v1) / resid v1 v2 c|) c := by
      refine ContinuousAt.abs (ContinuousAt.div ?_ hr.continuousAt hres.ne')
      fun_prop
    have k4 : Continuous fun c : ℝ => c ^ 2 := by fun_prop
    filter_upwards [k1.continuousAt.eventually_lt continuousAt_const (lt_add_one |c / Real.sqrt v1|),
      k2.continuousAt.eventually_lt continuousAt_const (lt_add_one |resid v1 v2 c|),
      k3.eventually_lt continuousAt_const (lt_add_one |-(c / v1) / resid v1 v2 c|), k4.continuousAt.eventually_lt continuousAt_const h] with x r1 r2 r3 r4
    exact ⟨r4, r1.le.trans (le_max_left _ _), r2.le.trans ((le_max_left _ _).trans (le_max_right _ _)),
      r3.le.trans ((le_max_right _ _).trans (le_max_right _ _))⟩
  obtain ⟨C, n, hC⟩ := t1.lin_bound M hM
  have tg : Tame fun x => φ (Real.sqrt v1 * x) := by
    obtain ⟨D, m, hD⟩ := t0.lin_bound |Real.sqrt v1| (abs_nonneg _)
    exact ⟨t0.meas.comp (by fun_prop), D, m, fun x => by simpa using hD (Real.sqrt v1) 0 x 0 le_rfl (by simp)⟩
  set K := M + |1 / Real.sqrt v1| with hK
  have hK0 : 0 ≤ K := by positivity
  let F' : ℝ → ℝ × ℝ → ℝ := fun x z => φ (Real.sqrt v1 * z.1) *
    (φ' (x / Real.sqrt v1 * z.1 + resid v1 v2 x * z.2) * (1 / Real.sqrt v1 * z.1 + -(x / v1) / resid v1 v2 x * z.2))
  have gi : Integrable (fun z : ℝ × ℝ => |φ (Real.sqrt v1 * z.1) * (C * K * (1 + |z.1|) ^ (n + 1))| * (1 + |z.2|) ^ (n + 1)) std2 := by
    have := ((tg.mul ((Tame.const (C * K)).mul (tame_pow_abs (n + 1)))).integrable (P := std2) (tame_pow_abs (n + 1))).norm
    refine this.congr (Filter.Eventually.of_forall fun z => ?_)
    simp only [Real.norm_eq_abs, abs_mul, abs_pow]
    rw [abs_of_nonneg (a := 1 + |z.2|) (by positivity)]
  have key := hasDerivAt_integral_of_dominated_loc_of_deriv_le (μ := std2) (F := fun x z => φ (chol v1 v2 x z).1 * φ (chol v1 v2 x z).2) (F' := F')
    (x₀ := c) (s := s) (bound := fun z => |φ (Real.sqrt v1 * z.1) * (C * K * (1 + |z.1|) ^ (n + 1))| * (1 + |z.2|) ^ (n + 1)) hs0 ?_ ?_ ?_ ?_ gi ?_
  · refine key.2.congr_deriv ?_
    -- the derivative in terms of the pair
    have hP := chol_pair h1 h.le
    have hg := hP.gaussian
    have s1 := hP.stein d1 d2 t0 t1 t1 t2
    have s2 := hP.stein2 d1 d2 t0 t1 t1 t2
    have i1 : Integrable (fun x : ℝ × ℝ => x.1 * (φ x.1 * φ' x.2)) (std2.map (chol v1 v2 c)) := by
      have := (Tame.id.mul t0).integrable (P := std2.map (chol v1 v2 c)) t1
      simpa [mul_assoc] using this
    have i2 : Integrable (fun x : ℝ × ℝ => x.2 * (φ x.1 * φ' x.2)) (std2.map (chol v1 v2 c)) := by
      have := t0.integrable (P := std2.map (chol v1 v2 c)) (Tame.id.mul t1)
      refine this.congr (Filter.Eventually.of_forall fun x => by ring)
    have sv := (Real.sqrt_pos.2 h1).ne'
    have sq := Real.sq_sqrt h1.le
    have hv := h1.ne'
    have r2 : resid v1 v2 c ^ 2 = v2 - c ^ 2 / v1 := Real.sq_sqrt (by rw [sub_nonneg, div_le_iff₀ h1, mul_comm]; exact h.le)
    have m0 := t0.meas
    have m1 := t1.meas
    have e : ∫ z, F' c z ∂std2 = ∫ x, ((1 / v1 + c ^ 2 / (v1 ^ 2 * resid v1 v2 c ^ 2)) * (x.1 * (φ x.1 * φ' x.2)) +
        -(c / (v1 * resid v1 v2 c ^ 2)) * (x.2 * (φ x.1 * φ' x.2))) ∂(std2.map (chol v1 v2 c)) := by
      rw [integral_chol (by fun_prop)]
      congr 1
      funext z
      simp only [F', chol]
      have : 1 / Real.sqrt v1 * z.1 + -(c / v1) / resid v1 v2 c * z.2 =
          (1 / v1 + c ^ 2 / (v1 ^ 2 * resid v1 v2 c ^ 2)) * (Real.sqrt v1 * z.1) +
          -(c / (v1 * resid v1 v2 c ^ 2)) * (c / Real.sqrt v1 * z.1 + resid v1 v2 c * z.2) := by
        have hne := hres.ne'
        generalize resid v1 v2 c = r at hne ⊢
        have e1 : 1 / Real.sqrt v1 = Real.sqrt v1 / v1 := by
          rw [div_eq_div_iff sv hv, one_mul, ← pow_two, sq]
        have e2 : c / Real.sqrt v1 = c * Real.sqrt v1 / v1 := by
          rw [div_eq_div_iff sv hv, mul_assoc, ← pow_two, sq]
        rw [e1, e2]
        field_simp
        ring
      rw [this]
      ring
    rw [e, integral_add (i1.const_mul _) (i2.const_mul _), integral_const_mul, integral_const_mul, s1, s2, r2,
      ← integral_chol (f := fun x => φ' x.1 * φ' x.2) (by fun_prop)]
    have hp' : v1 * v2 - c ^ 2 ≠ 0 := (sub_pos.2 h).ne'
    have hq : v2 - c ^ 2 / v1 = (v1 * v2 - c ^ 2) / v1 := by field_simp
    rw [hq]
    generalize ∫ x, φ' x.1 * φ' x.2 ∂(std2.map (chol v1 v2 c)) = A
    generalize ∫ x, φ x.1 * φ'' x.2 ∂(std2.map (chol v1 v2 c)) = B
    field_simp
    ring
  · refine Filter.Eventually.of_forall fun x => Measurable.aestronglyMeasurable ?_
    have := measurable_chol v1 v2 x
    exact (cφ.measurable.comp (measurable_fst.comp this)).mul (cφ.measurable.comp (measurable_snd.comp this))
  · have hP := chol_pair h1 h.le
    have hg := hP.gaussian
    have := t0.integrable (P := std2.map (chol v1 v2 c)) t0
    have m0 := t0.meas
    rwa [integrable_map_measure (Measurable.aestronglyMeasurable (by fun_prop)) (measurable_chol v1 v2 c).aemeasurable] at this
  · refine Measurable.aestronglyMeasurable ?_
    have m0 := t0.meas
    have m1 := t1.meas
    simp only [F']
    fun_prop
  · refine Filter.Eventually.of_forall fun z x hx => ?_
    obtain ⟨-, b1, b2, b3⟩ := hb x hx
    have a1 := hC _ _ z.1 z.2 b1 b2
    have a2 : |1 / Real.sqrt v1 * z.1 + -(x / v1) / resid v1 v2 x * z.2| ≤ K * ((1 + |z.1|) * (1 + |z.2|)) := by
      have : |1 / Real.sqrt v1 * z.1 + -(x / v1) / resid v1 v2 x * z.2| ≤ |1 / Real.sqrt v1| * |z.1| + M * |z.2| := by
        refine (abs_add_le _ _).trans (add_le_add (abs_mul _ _).le ?_)
        rw [abs_mul]
        exact mul_le_mul_of_nonneg_right b3 (abs_nonneg _)
      have p1 := abs_nonneg z.1
      have p2 := abs_nonneg z.2
      have p3 := abs_nonneg (1 / Real.sqrt v1)
      have p4 : 0 ≤ |z.1| * |z.2| := by positivity
      rw [hK]
      nlinarith [mul_nonneg p3 p2, mul_nonneg hM p1, mul_nonneg hM p4, mul_nonneg p3 p4]
    simp only [F']
    rw [Real.norm_eq_abs, abs_mul, abs_mul, abs_mul, mul_assoc]
    refine mul_le_mul_of_nonneg_left ?_ (abs_nonneg _)
    calc |φ' (x / Real.sqrt v1 * z.1 + resid v1 v2 x * z.2)| * |1 / Real.sqrt v1 * z.1 + -(x / v1) / resid v1 v2 x * z.2|
        ≤ C * ((1 + |z.1|) ^ n * (1 + |z.2|) ^ n) * (K * ((1 + |z.1|) * (1 + |z.2|))) := mul_le_mul a1 a2 (abs_nonneg _) ((abs_nonneg _).trans a1)
      _ = C * K * (1 + |z.1|) ^ (n + 1) * (1 + |z.2|) ^ (n + 1) := by ring
      _ ≤ _ := mul_le_mul_of_nonneg_right (le_abs_self _) (by positivity)
  · refine Filter.Eventually.of_forall fun z x hx => ?_
    obtain ⟨b0, -⟩ := hb x hx
    simp only [chol, F']
    have e1 : HasDerivAt (fun x : ℝ => x / Real.sqrt v1 * z.1) (1 / Real.sqrt v1 * z.1) x := ((hasDerivAt_id x).div_const _).mul_const _
    have e2 := (hasDerivAt_resid h1 b0).mul_const z.2
    exact (((d1 _).comp x (e1.add e2)).const_mul _)

end NT.Gauss
