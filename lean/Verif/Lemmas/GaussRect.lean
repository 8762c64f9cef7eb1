import Verif.Lemmas.GaussPolar
import Verif.Model.Elementwise
import Mathlib.Analysis.SpecialFunctions.Trigonometric.InverseDeriv

/-!
# Expectations of rectified monomials (the arc-cosine kernels)
-/

namespace NT.Gauss
open MeasureTheory ProbabilityTheory Spec Set

/-- `∫₀^{π-θ} (cos θ + cos s)^n ds`, by its recursion. -/
noncomputable def arcA (θ : ℝ) : ℕ → ℝ
  | 0 => Real.pi - θ
  | 1 => Real.sin θ + (Real.pi - θ) * Real.cos θ
  | n + 2 => ((2 * n + 3) * Real.cos θ * arcA θ (n + 1) + (n + 1) * Real.sin θ ^ 2 * arcA θ n) / (n + 2)

lemma arcA_succ2 (θ : ℝ) (n : ℕ) :
    (n + 2) * arcA θ (n + 2) = (2 * n + 3) * Real.cos θ * arcA θ (n + 1) + (n + 1) * Real.sin θ ^ 2 * arcA θ n := by
  rw [arcA]
  have : (n : ℝ) + 2 ≠ 0 := by positivity
  field_simp

lemma arcA_integral (θ : ℝ) (n : ℕ) : arcA θ n = ∫ s in (0)..(Real.pi - θ), (Real.cos θ + Real.cos s) ^ n := by
  induction n using Nat.strong_induction_on with
  | _ n ih =>
    match n, ih with
    | 0, _ => simp [arcA]
    | 1, _ =>
      simp only [pow_one]
      rw [intervalIntegral.integral_add (by simp) (Real.continuous_cos.intervalIntegrable _ _)]
      simp [arcA]
      ring
    | n + 2, ih =>
      have h1 := ih (n + 1) (by omega)
      have h0 := ih n (by omega)
      have hn : (n : ℝ) + 2 ≠ 0 := by positivity
      apply mul_left_cancel₀ hn
      rw [arcA_succ2, h1, h0]
      set c := Real.cos θ with hc
      have hder : ∀ s ∈ uIcc 0 (Real.pi - θ), HasDerivAt (fun s => (c + Real.cos s) ^ (n + 1) * Real.sin s)
          (((n + 2 : ℝ) * (c + Real.cos s) ^ (n + 2) - (2 * n + 3) * c * (c + Real.cos s) ^ (n + 1)) -
            (n + 1) * (1 - c ^ 2) * (c + Real.cos s) ^ n) s := by
        intro s _
        have a1 : HasDerivAt (fun s => (c + Real.cos s) ^ (n + 1)) (((n + 1 : ℕ) : ℝ) * (c + Real.cos s) ^ n * (-Real.sin s)) s :=
          ((Real.hasDerivAt_cos s).const_add c).pow (n + 1)
        refine (a1.mul (Real.hasDerivAt_sin s)).congr_deriv ?_
        have hs : Real.sin s ^ 2 = 1 - Real.cos s ^ 2 := Real.sin_sq s
        push_cast
        rw [show ((n : ℝ) + 1) * (c + Real.cos s) ^ n * -Real.sin s * Real.sin s = -((n + 1) * (c + Real.cos s) ^ n * Real.sin s ^ 2) by ring,
          hs]
        ring
      have ii : ∀ k, IntervalIntegrable (fun s => (c + Real.cos s) ^ k) volume 0 (Real.pi - θ) :=
        fun k => Continuous.intervalIntegrable (by fun_prop) _ _
      have hcont : IntervalIntegrable (fun s => ((n + 2 : ℝ) * (c + Real.cos s) ^ (n + 2) -
          (2 * n + 3) * c * (c + Real.cos s) ^ (n + 1)) - (n + 1) * (1 - c ^ 2) * (c + Real.cos s) ^ n) volume 0 (Real.pi - θ) :=
        Continuous.intervalIntegrable (by fun_prop) _ _
      have := intervalIntegral.integral_eq_sub_of_hasDerivAt hder hcont
      rw [Real.cos_pi_sub, Real.sin_zero, ← hc, intervalIntegral.integral_sub (((ii _).const_mul _).sub ((ii _).const_mul _)) ((ii _).const_mul _),
        intervalIntegral.integral_sub ((ii _).const_mul _) ((ii _).const_mul _)] at this
      simp only [intervalIntegral.integral_const_mul, add_neg_cancel] at this
      rw [Real.sin_sq, ← hc]
      simp only [ne_eq, Nat.add_eq_zero_iff, one_ne_zero, and_false, not_false_eq_true, zero_pow, zero_mul, mul_zero, sub_zero] at this
      linarith

lemma arcA_deriv (θ : ℝ) (n : ℕ) : HasDerivAt (fun θ => arcA θ (n + 1)) (-((n + 1) * Real.sin θ * arcA θ n)) θ := by
  induction n using Nat.strong_induction_on with
  | _ n ih =>
    match n, ih with
    | 0, _ =>
      simp only [arcA]
      refine ((Real.hasDerivAt_sin θ).add (((hasDerivAt_id θ).const_sub Real.pi).mul (Real.hasDerivAt_cos θ))).congr_deriv ?_
      simp
      ring
    | n + 1, ih =>
      have h1 := ih n (by omega)
      have h0 : HasDerivAt (fun θ => ((n + 1 : ℝ)) * Real.sin θ ^ 2 * arcA θ n)
          ((n + 1) * (2 * Real.sin θ * Real.cos θ) * arcA θ n + (n + 1) * Real.sin θ ^ 2 * (-(n * Real.sin θ * arcA θ (n - 1)) - if n = 0 then 1 else 0)) θ := by
        have s2 : HasDerivAt (fun θ => ((n + 1 : ℝ)) * Real.sin θ ^ 2) ((n + 1) * (2 * Real.sin θ * Real.cos θ)) θ := by
          refine (((Real.hasDerivAt_sin θ).pow 2).const_mul _).congr_deriv ?_
          ring
        refine s2.mul ?_
        rcases n with - | n
        · simp only [arcA]
          refine ((hasDerivAt_id θ).const_sub Real.pi).congr_deriv ?_
          simp
        · refine (ih n (by omega)).congr_deriv ?_
          simp
      have hn : (n : ℝ) + 2 ≠ 0 := by positivity
      have e : (fun θ => arcA θ (n + 1 + 1)) = fun θ =>
          ((2 * n + 3) * Real.cos θ * arcA θ (n + 1) + (n + 1) * Real.sin θ ^ 2 * arcA θ n) / (n + 2) := by
        funext θ
        rw [arcA]
      rw [e]
      refine ((((Real.hasDerivAt_cos θ).const_mul (2 * n + 3 : ℝ)).mul h1).add h0 |>.div_const (n + 2 : ℝ)).congr_deriv ?_
      have key : (n + 1 : ℝ) * arcA θ (n + 1) = (2 * n + 1) * Real.cos θ * arcA θ n +
          Real.sin θ * (n * Real.sin θ * arcA θ (n - 1) + if n = 0 then 1 else 0) := by
        rcases n with - | n
        · simp [arcA]
          ring
        · have := arcA_succ2 θ n
          push_cast
          simp
          linarith
      rw [div_eq_iff hn]
      push_cast
      generalize (if n = 0 then (1 : ℝ) else 0) = w at key ⊢
      have key2 : Real.sin θ * (n * Real.sin θ * arcA θ (n - 1) + w) =
          (n + 1 : ℝ) * arcA θ (n + 1) - (2 * n + 1) * Real.cos θ * arcA θ n := by linarith
      have e3 : (n + 1 : ℝ) * Real.sin θ ^ 2 * (-(n * Real.sin θ * arcA θ (n - 1)) - w) =
          -((n + 1) * Real.sin θ * (Real.sin θ * (n * Real.sin θ * arcA θ (n - 1) + w))) := by ring
      rw [e3, key2]
      ring

/-- The code's iterated derivative. -/
lemma rectF_eq (n : ℕ) : ∀ θ, 0 < θ → θ < Real.pi →
    rectF n θ = (-1) ^ n * (n.factorial * arcA θ n) / Real.sin θ ^ (2 * n + 1) := by
  induction n with
  | zero =>
    intro θ _ _
    simp [rectF, arcA]
  | succ n ih =>
    intro θ h0 h1
    have hs : 0 < Real.sin θ := Real.sin_pos_of_pos_of_lt_pi h0 h1
    have hev : rectF n =ᶠ[nhds θ] fun θ => (-1) ^ n * (n.factorial * arcA θ n) / Real.sin θ ^ (2 * n + 1) := by
      filter_upwards [Ioo_mem_nhds h0 h1] with t ht
      exact ih t ht.1 ht.2
    have hA : HasDerivAt (fun θ => arcA θ n) (-(n * Real.sin θ * arcA θ (n - 1)) - if n = 0 then 1 else 0) θ := by
      rcases n with - | n
      · simp only [arcA]
        refine ((hasDerivAt_id θ).const_sub Real.pi).congr_deriv ?_
        simp
      · refine (arcA_deriv θ n).congr_deriv ?_
        simp
    have hd := ((hA.const_mul (n.factorial : ℝ)).const_mul ((-1 : ℝ) ^ n)).div ((Real.hasDerivAt_sin θ).pow (2 * n + 1))
      (pow_ne_zero _ hs.ne')
    show deriv (rectF n) θ / Real.sin θ = _
    rw [hev.deriv_eq]
    rw [show (fun θ => (-1) ^ n * (n.factorial * arcA θ n) / Real.sin θ ^ (2 * n + 1)) = (fun θ => (-1 : ℝ) ^ n * (n.factorial * arcA θ n)) /
      (fun θ => Real.sin θ ^ (2 * n + 1)) from rfl]
    rw [show (fun θ => Real.sin θ ^ (2 * n + 1)) = Real.sin ^ (2 * n + 1) from rfl]
    rw [hd.deriv]
    have key : (n + 1 : ℝ) * arcA θ (n + 1) = (2 * n + 1) * Real.cos θ * arcA θ n +
        Real.sin θ * (n * Real.sin θ * arcA θ (n - 1) + if n = 0 then 1 else 0) := by
      rcases n with - | n
      · simp [arcA]
        ring
      · have := arcA_succ2 θ n
        push_cast
        simp
        linarith
    generalize (if n = 0 then (1 : ℝ) else 0) = w at key ⊢
    have hsne := hs.ne'
    have e : ((n + 1).factorial : ℝ) * arcA θ (n + 1) = n.factorial * ((n + 1 : ℝ) * arcA θ (n + 1)) := by
      rw [Nat.factorial_succ]
      push_cast
      ring
    rw [e, key]
    simp only [Nat.add_sub_cancel, Pi.pow_apply]
    push_cast
    rw [div_div, div_eq_div_iff (by positivity) (by positivity)]
    ring

lemma rect_neg (n : ℕ) {x : ℝ} (h : x < 0) : rectifiedMonomialFn n x = 0 := by
  simp [rectifiedMonomialFn, not_le.2 h]

lemma rect_nonneg (n : ℕ) {x : ℝ} (h : 0 ≤ x) : rectifiedMonomialFn n x = x ^ n := by
  simp [rectifiedMonomialFn, h]

lemma rect_mul (n : ℕ) {c : ℝ} (hc : 0 < c) (x : ℝ) : rectifiedMonomialFn n (c * x) = c ^ n * rectifiedMonomialFn n x := by
  rcases lt_or_ge x 0 with h | h
  · rw [rect_neg n h, rect_neg n (mul_neg_of_pos_of_neg hc h), mul_zero]
  · rw [rect_nonneg n h, rect_nonneg n (mul_nonneg hc.le h), mul_pow]

lemma measurable_rect (n : ℕ) : Measurable (rectifiedMonomialFn n) := by
  classical
  unfold rectifiedMonomialFn
  exact (Measurable.ite measurableSet_Ici measurable_const measurable_const).mul (measurable_id.pow_const n)

lemma abs_rect_le (n : ℕ) {x : ℝ} (h : |x| ≤ 1) : |rectifiedMonomialFn n x| ≤ 1 := by
  rcases lt_or_ge x 0 with h' | h'
  · simp [rect_neg n h']
  · rw [rect_nonneg n h', abs_pow]
    exact pow_le_one₀ (abs_nonneg _) h

lemma rect_angular (n : ℕ) (θ : ℝ) (h0 : 0 ≤ θ) (h1 : θ ≤ Real.pi) :
    ∫ t in (-Real.pi)..Real.pi, rectifiedMonomialFn n (Real.cos t) * rectifiedMonomialFn n (Real.cos (t - θ)) =
      (2 ^ n)⁻¹ * arcA θ n := by
  have hpi := Real.pi_pos
  set f : ℝ → ℝ := fun t => rectifiedMonomialFn n (Real.cos t) * rectifiedMonomialFn n (Real.cos (t - θ)) with hf
  have hfm : Measurable f := ((measurable_rect n).comp (by fun_prop)).mul ((measurable_rect n).comp (by fun_prop))
  have hfi : ∀ a b, IntervalIntegrable f volume a b := by
    intro a b
    refine (intervalIntegrable_const (c := (1 : ℝ))).mono_fun hfm.aestronglyMeasurable (Filter.Eventually.of_forall fun t => ?_)
    simp only [hf, norm_mul, Real.norm_eq_abs]
    rw [abs_one]
    exact mul_le_one₀ (abs_rect_le n (Real.abs_cos_le_one _)) (abs_nonneg _) (abs_rect_le n (Real.abs_cos_le_one _))
  have e1 : ∫ t in (-Real.pi)..(-(Real.pi / 2)), f t = 0 := by
    rw [interval_congr (g := fun _ => 0) (by linarith) fun t ht1 ht2 => ?_]
    · simp
    · have : 0 < Real.cos (t + Real.pi) := Real.cos_pos_of_mem_Ioo ⟨by linarith, by linarith⟩
      rw [Real.cos_add_pi] at this
      simp only [hf, rect_neg n (show Real.cos t < 0 by linarith), zero_mul]
  have e2 : ∫ t in (-(Real.pi / 2))..(θ - Real.pi / 2), f t = 0 := by
    rw [interval_congr (g := fun _ => 0) (by linarith) fun t ht1 ht2 => ?_]
    · simp
    · have : 0 < Real.cos (t - θ + Real.pi) := Real.cos_pos_of_mem_Ioo ⟨by linarith, by linarith⟩
      rw [Real.cos_add_pi] at this
      simp only [hf, rect_neg n (show Real.cos (t - θ) < 0 by linarith), mul_zero]
  have e3 : ∫ t in (Real.pi / 2)..Real.pi, f t = 0 := by
    rw [interval_congr (g := fun _ => 0) (by linarith) fun t ht1 ht2 => ?_]
    · simp
    · have : 0 < Real.cos (t - Real.pi) := Real.cos_pos_of_mem_Ioo ⟨by linarith, by linarith⟩
      rw [Real.cos_sub_pi] at this
      simp only [hf, rect_neg n (show Real.cos t < 0 by linarith), zero_mul]
  have e4 : ∫ t in (θ - Real.pi / 2)..(Real.pi / 2), f t =
      ∫ t in (θ - Real.pi / 2)..(Real.pi / 2), (2 ^ n)⁻¹ * (fun s => (Real.cos θ + Real.cos s) ^ n) (2 * t - θ) := by
    refine interval_congr (by linarith) fun t ht1 ht2 => ?_
    have c1 : 0 < Real.cos t := Real.cos_pos_of_mem_Ioo ⟨by linarith, by linarith⟩
    have c2 : 0 < Real.cos (t - θ) := Real.cos_pos_of_mem_Ioo ⟨by linarith, by linarith⟩
    simp only [hf, rect_nonneg n c1.le, rect_nonneg n c2.le]
    rw [← mul_pow, ← inv_pow, ← mul_pow]
    congr 1
    have a1 : Real.cos θ = Real.cos t * Real.cos (t - θ) + Real.sin t * Real.sin (t - θ) := by
      rw [← Real.cos_sub]; congr 1; ring
    have a2 : Real.cos (2 * t - θ) = Real.cos t * Real.cos (t - θ) - Real.sin t * Real.sin (t - θ) := by
      rw [← Real.cos_add]; congr 1; ring
    linarith
  have hsum : ∫ t in (-Real.pi)..Real.pi, f t = ∫ t in (θ - Real.pi / 2)..(Real.pi / 2), f t := by
    rw [← intervalIntegral.integral_add_adjacent_intervals (hfi _ (-(Real.pi / 2))) (hfi _ _), e1,
      ← intervalIntegral.integral_add_adjacent_intervals (hfi _ (θ - Real.pi / 2)) (hfi _ _), e2,
      ← intervalIntegral.integral_add_adjacent_intervals (hfi _ (Real.pi / 2)) (hfi _ _), e3]
    ring
  rw [hsum, e4, intervalIntegral.integral_const_mul, intervalIntegral.integral_comp_mul_sub
    (fun s => (Real.cos θ + Real.cos s) ^ n) (by norm_num : (2 : ℝ) ≠ 0), arcA_integral]
  congr 1
  have hc : ∀ a b, IntervalIntegrable (fun s => (Real.cos θ + Real.cos s) ^ n) volume a b :=
    fun a b => Continuous.intervalIntegrable (by fun_prop) _ _
  rw [show 2 * (θ - Real.pi / 2) - θ = -(Real.pi - θ) by ring, show 2 * (Real.pi / 2) - θ = Real.pi - θ by ring,
    ← intervalIntegral.integral_add_adjacent_intervals (hc _ 0) (hc _ _)]
  have : ∫ s in -(Real.pi - θ)..0, (Real.cos θ + Real.cos s) ^ n = ∫ s in (0)..(Real.pi - θ), (Real.cos θ + Real.cos s) ^ n := by
    have := intervalIntegral.integral_comp_neg (a := 0) (b := Real.pi - θ) fun s => (Real.cos θ + Real.cos s) ^ n
    simp only [Real.cos_neg, neg_zero] at this
    exact this.symm
  rw [this, smul_eq_mul]
  ring

variable {P : Measure (ℝ × ℝ)} {q11 q12 q22 : ℝ}

/-- The expectation of the product of two rectified monomials. -/
lemma _root_.NT.Spec.GaussPair.rect (h : GaussPair P q11 q12 q22) (h1 : 0 < q11) (h2 : 0 < q22) (n : ℕ) :
    ∫ x, rectifiedMonomialFn n x.1 * rectifiedMonomialFn n x.2 ∂P =
      Real.sqrt (q11 * q22) ^ n / (2 * Real.pi) * (n.factorial * arcA (Real.arccos (q12 / Real.sqrt (q11 * q22))) n) := by
  obtain ⟨θ, t0, t1, t2, -, rfl⟩ := h.repr
  have s1 := Real.sqrt_pos.2 h1
  have s2 := Real.sqrt_pos.2 h2
  have hθ : Real.arccos (q12 / Real.sqrt (q11 * q22)) = θ := by
    rw [t2, Real.sqrt_mul h1.le, mul_div_cancel_left₀ _ (mul_pos s1 s2).ne', Real.arccos_cos t0 t1]
  rw [hθ]
  have hm : Measurable fun x : ℝ × ℝ => rectifiedMonomialFn n x.1 * rectifiedMonomialFn n x.2 :=
    ((measurable_rect n).comp measurable_fst).mul ((measurable_rect n).comp measurable_snd)
  rw [integral_map (by fun_prop) hm.aestronglyMeasurable]
  rw [std2_homogeneous n _ (fun t => Real.sqrt q11 ^ n * Real.sqrt q22 ^ n *
    (rectifiedMonomialFn n (Real.cos t) * rectifiedMonomialFn n (Real.cos (t - θ)))), intervalIntegral.integral_const_mul,
    rect_angular n θ t0 t1, Real.sqrt_mul h1.le, mul_pow]
  · have : (2 : ℝ) ^ n ≠ 0 := by positivity
    field_simp
  · intro r t hr
    simp only
    rw [rect_mul n s1, rect_mul n s2, rect_mul n hr, show Real.cos θ * (r * Real.cos t) + Real.sin θ * (r * Real.sin t) =
      r * Real.cos (t - θ) by rw [Real.cos_sub]; ring, rect_mul n hr]
    ring

/-- The code's `j`, for inputs that are not perfectly correlated. -/
lemma rectJ_eq (n : ℕ) {x s : ℝ} (hs : 0 < s) (h : |x| < s) : rectJ n x s = n.factorial * arcA (Real.arccos (x / s)) n := by
  have hx := abs_lt.1 h
  have h1 : -1 < x / s := by rw [lt_div_iff₀ hs]; linarith [hx.1]
  have h2 : x / s < 1 := by rw [div_lt_one hs]; exact hx.2
  have t0 : 0 < Real.arccos (x / s) := Real.arccos_pos.2 h2
  have t1 : Real.arccos (x / s) < Real.pi := by
    rw [← Real.arccos_neg_one]
    exact Real.strictAntiOn_arccos ⟨le_rfl, by norm_num⟩ ⟨h1.le, h2.le⟩ h1
  have hsin := Real.sin_pos_of_pos_of_lt_pi t0 t1
  unfold rectJ
  simp only
  rw [rectF_eq n _ t0 t1]
  have e : ((-1 : ℝ) ^ n) * (-1) ^ n = 1 := by rw [← mul_pow]; norm_num
  have : (-1 : ℝ) ^ n * Real.sin (Real.arccos (x / s)) ^ (2 * n + 1) * ((-1) ^ n * (n.factorial * arcA (Real.arccos (x / s)) n) /
      Real.sin (Real.arccos (x / s)) ^ (2 * n + 1)) = ((-1 : ℝ) ^ n * (-1) ^ n) * (n.factorial * arcA (Real.arccos (x / s)) n) := by
    field_simp
  rw [this, e, one_mul]

lemma rectJ_deriv (n : ℕ) {x s : ℝ} (hs : 0 < s) (h : |x| < s) :
    deriv (fun x => rectJ (n + 1) x s) x = (n + 1) ^ 2 * (n.factorial * arcA (Real.arccos (x / s)) n) / s := by
  have hx := abs_lt.1 h
  have h1 : -1 < x / s := by rw [lt_div_iff₀ hs]; linarith [hx.1]
  have h2 : x / s < 1 := by rw [div_lt_one hs]; exact hx.2
  have hev : (fun x => rectJ (n + 1) x s) =ᶠ[nhds x] fun x => (n + 1).factorial * arcA (Real.arccos (x / s)) (n + 1) := by
    filter_upwards [Ioo_mem_nhds hx.1 hx.2] with y hy
    exact rectJ_eq (n + 1) hs (abs_lt.2 ⟨hy.1, hy.2⟩)
  rw [hev.deriv_eq]
  have ha : HasDerivAt (fun x => Real.arccos (x / s)) (-(1 / Real.sqrt (1 - (x / s) ^ 2)) * (1 / s)) x :=
    HasDerivAt.comp (h₂ := Real.arccos) (h := fun x => x / s) x (Real.hasDerivAt_arccos h1.ne' h2.ne)
      ((hasDerivAt_id x).div_const s)
  have hA := ((arcA_deriv (Real.arccos (x / s)) n).comp x ha).const_mul ((n + 1).factorial : ℝ)
  have e : deriv (fun x => ((n + 1).factorial : ℝ) * arcA (Real.arccos (x / s)) (n + 1)) x = _ := hA.deriv
  rw [e, Real.sin_arccos, Nat.factorial_succ]
  have : 0 < Real.sqrt (1 - (x / s) ^ 2) := Real.sqrt_pos.2 (by nlinarith)
  generalize Real.sqrt (1 - (x / s) ^ 2) = w at this ⊢
  push_cast
  field_simp

end NT.Gauss
