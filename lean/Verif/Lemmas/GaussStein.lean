import Verif.Tac
import Verif.Lemmas.GaussMoments

/-!
# Stein's identity for Gaussian pairs
-/

namespace NT.Gauss
open MeasureTheory ProbabilityTheory Spec

/-- Stein's identity for one standard normal variable. -/
lemma std_stein_fun {p p' : ℝ → ℝ} (hp : ∀ z, HasDerivAt p (p' z) z) (i0 : Integrable p std) (i1 : Integrable (fun z => z * p z) std)
    (i2 : Integrable p' std) : ∫ z, z * p z ∂std = ∫ z, p' z ∂std := by
  have hd : ∀ z : ℝ, HasDerivAt (fun z => -gaussianPDFReal 0 1 z) (z * gaussianPDFReal 0 1 z) z := by
    intro z
    have h1 : HasDerivAt (fun z : ℝ => -(z - 0) ^ 2 / (2 * ((1 : NNReal) : ℝ))) (-z) z := by
      have h2 : HasDerivAt (fun z : ℝ => z ^ 2) (2 * z) z := by simpa using hasDerivAt_pow 2 z
      have h3 := h2.neg.div_const 2
      simp only [sub_zero, NNReal.coe_one, mul_one]
      exact h3.congr_deriv (by ring)
    have := (h1.exp.const_mul (Real.sqrt (2 * Real.pi * ((1 : NNReal) : ℝ)))⁻¹).neg
    unfold gaussianPDFReal
    exact this.congr_deriv (by ring)
  have hi : ∀ q : ℝ → ℝ, Integrable q std → Integrable (fun z => q z * gaussianPDFReal 0 1 z) := by
    intro q this
    unfold std at this
    rw [gaussianReal_of_var_ne_zero 0 one_ne_zero, integrable_withDensity_iff_integrable_smul' (measurable_gaussianPDF 0 1)
      (Filter.Eventually.of_forall fun z => gaussianPDF_lt_top)] at this
    refine this.congr (Filter.Eventually.of_forall fun z => ?_)
    simp only [toReal_gaussianPDF, smul_eq_mul]
    ring
  have hs : ∀ f : ℝ → ℝ, ∫ z, f z ∂std = ∫ z, f z * gaussianPDFReal 0 1 z := by
    intro f
    unfold std
    rw [integral_gaussianReal_eq_integral_smul one_ne_zero]
    congr 1
    funext z
    rw [smul_eq_mul, mul_comm]
  rw [hs, hs]
  have h := integral_mul_deriv_eq_deriv_mul_of_integrable (u := p) (u' := p')
    (v := fun z => -gaussianPDFReal 0 1 z) (v' := fun z => z * gaussianPDFReal 0 1 z)
    (fun z _ => hp z) (fun z _ => hd z) ?_ ?_ ?_
  · have e1 : (fun z => z * p z * gaussianPDFReal 0 1 z) = fun z => p z * (z * gaussianPDFReal 0 1 z) := by
      funext z; ring
    rw [e1, h, ← integral_neg]
    congr 1
    funext z
    ring
  · refine (hi _ i1).congr (Filter.Eventually.of_forall fun z => ?_)
    simp only [Pi.mul_apply]
    ring
  · refine (hi _ i2).neg.congr (Filter.Eventually.of_forall fun z => ?_)
    simp only [Pi.mul_apply, Pi.neg_apply]
    ring
  · refine (hi _ i0).neg.congr (Filter.Eventually.of_forall fun z => ?_)
    simp only [Pi.mul_apply, Pi.neg_apply]
    ring

variable {P : Measure (ℝ × ℝ)} {q11 q12 q22 : ℝ}

/-- A measurable function that grows at most polynomially. -/
structure Tame (g : ℝ → ℝ) : Prop where
  meas : Measurable g
  bound : ∃ C n, ∀ x, |g x| ≤ C * (1 + |x|) ^ n

namespace Tame

lemma of_bounded {g : ℝ → ℝ} (h : Measurable g) (C : ℝ) (hb : ∀ x, |g x| ≤ C) : Tame g := ⟨h, C, 0, fun x => by simpa using hb x⟩

lemma const (c : ℝ) : Tame fun _ => c := of_bounded measurable_const |c| fun _ => le_rfl

lemma id : Tame fun x => x := ⟨measurable_id, 1, 1, fun x => by simp⟩

lemma mul {g h : ℝ → ℝ} (hg : Tame g) (hh : Tame h) : Tame fun x => g x * h x := by
  obtain ⟨m1, C, m, b1⟩ := hg
  obtain ⟨m2, D, n, b2⟩ := hh
  refine ⟨m1.mul m2, C * D, m + n, fun x => ?_⟩
  rw [abs_mul, pow_add]
  calc |g x| * |h x| ≤ (C * (1 + |x|) ^ m) * (D * (1 + |x|) ^ n) := mul_le_mul (b1 x) (b2 x) (abs_nonneg _) ((abs_nonneg _).trans (b1 x))
    _ = _ := by ring

lemma nonneg {g : ℝ → ℝ} {C : ℝ} {n : ℕ} (h : ∀ x, |g x| ≤ C * (1 + |x|) ^ n) : 0 ≤ C := by
  have := (abs_nonneg _).trans (h 0)
  simpa using this

lemma add {g h : ℝ → ℝ} (hg : Tame g) (hh : Tame h) : Tame fun x => g x + h x := by
  obtain ⟨m1, C, m, b1⟩ := hg
  obtain ⟨m2, D, n, b2⟩ := hh
  refine ⟨m1.add m2, C + D, m + n, fun x => ?_⟩
  have c0 := nonneg b1
  have d0 := nonneg b2
  have one : 1 ≤ 1 + |x| := by linarith [abs_nonneg x]
  have p1 : (1 + |x|) ^ m ≤ (1 + |x|) ^ (m + n) := pow_le_pow_right₀ one (by omega)
  have p2 : (1 + |x|) ^ n ≤ (1 + |x|) ^ (m + n) := pow_le_pow_right₀ one (by omega)
  calc |g x + h x| ≤ |g x| + |h x| := abs_add_le _ _
    _ ≤ C * (1 + |x|) ^ m + D * (1 + |x|) ^ n := add_le_add (b1 x) (b2 x)
    _ ≤ C * (1 + |x|) ^ (m + n) + D * (1 + |x|) ^ (m + n) :=
      add_le_add (mul_le_mul_of_nonneg_left p1 c0) (mul_le_mul_of_nonneg_left p2 d0)
    _ = _ := by ring

lemma neg {g : ℝ → ℝ} (hg : Tame g) : Tame fun x => -g x := by
  have := (const (-1)).mul hg
  simpa using this

lemma sub {g h : ℝ → ℝ} (hg : Tame g) (hh : Tame h) : Tame fun x => g x - h x := by
  have := hg.add hh.neg
  simpa [sub_eq_add_neg] using this

lemma _root_.NT.Gauss.integrable_abs_pow [IsGaussian P] (m n : ℕ) : Integrable (fun x : ℝ × ℝ => |x.1| ^ m * |x.2| ^ n) P := by
  have := (integrable_mono (P := P) m n).norm
  simpa [abs_mul, abs_pow] using this

/-- Products of tame functions of the two variables are integrable. -/
lemma integrable [IsGaussian P] {g h : ℝ → ℝ} (hg : Tame g) (hh : Tame h) : Integrable (fun x : ℝ × ℝ => g x.1 * h x.2) P := by
  obtain ⟨m1, C, m, b1⟩ := hg
  obtain ⟨m2, D, n, b2⟩ := hh
  have key : Integrable (fun x : ℝ × ℝ => (C * (1 + |x.1|) ^ m) * (D * (1 + |x.2|) ^ n)) P := by
    have e : (fun x : ℝ × ℝ => (C * (1 + |x.1|) ^ m) * (D * (1 + |x.2|) ^ n)) = fun x =>
        ∑ i ∈ Finset.range (m + 1), ∑ j ∈ Finset.range (n + 1), C * D * m.choose i * n.choose j * (|x.1| ^ i * |x.2| ^ j) := by
      funext x
      rw [add_comm 1 |x.1|, add_comm 1 |x.2|, add_pow, add_pow, show ∀ a b : ℝ, C * a * (D * b) = C * D * (a * b) by intros; ring,
        Finset.sum_mul_sum, Finset.mul_sum]
      refine Finset.sum_congr rfl fun i _ => ?_
      rw [Finset.mul_sum]
      refine Finset.sum_congr rfl fun j _ => ?_
      simp only [one_pow, mul_one]
      ring
    rw [e]
    exact integrable_finsetSum _ fun i _ => integrable_finsetSum _ fun j _ => (integrable_abs_pow i j).const_mul _
  refine key.mono ((m1.comp measurable_fst).mul (m2.comp measurable_snd)).aestronglyMeasurable (Filter.Eventually.of_forall fun x => ?_)
  rw [Real.norm_eq_abs, Real.norm_eq_abs, abs_mul, abs_of_nonneg (mul_nonneg ((abs_nonneg _).trans (b1 x.1)) ((abs_nonneg _).trans (b2 x.2)))]
  exact mul_le_mul (b1 _) (b2 _) (abs_nonneg _) ((abs_nonneg _).trans (b1 _))

end Tame

/-- Stein's identity. -/
lemma _root_.NT.Spec.GaussPair.stein (h : GaussPair P q11 q12 q22) {g g' k k' : ℝ → ℝ} (dg : ∀ x, HasDerivAt g (g' x) x)
    (dk : ∀ x, HasDerivAt k (k' x) x) (tg : Tame g) (tg' : Tame g') (tk : Tame k) (tk' : Tame k') :
    ∫ x, x.1 * (g x.1 * k x.2) ∂P = q11 * ∫ x, g' x.1 * k x.2 ∂P + q12 * ∫ x, g x.1 * k' x.2 ∂P := by
  have hg := h.gaussian
  have s0 : Integrable (fun x : ℝ × ℝ => x.1 * (g x.1 * k x.2)) P := by
    have := (Tame.id.mul tg).integrable (P := P) tk
    simpa [mul_assoc] using this
  have s1 := tg.integrable (P := P) tk
  have s2 := tg'.integrable (P := P) tk
  have s3 := tg.integrable (P := P) tk'
  obtain ⟨θ, -, -, t3, -, t5⟩ := h.repr
  set a := Real.sqrt q11 with ha
  set c := Real.sqrt q22 * Real.cos θ with hc
  set d := Real.sqrt q22 * Real.sin θ with hdd
  have ea : a * a = q11 := Real.mul_self_sqrt h.nonneg1
  have eac : a * c = q12 := by rw [t3, hc]; ring
  have hP : P = std2.map (fun z => (a * z.1, c * z.1 + d * z.2)) := by
    rw [t5]
    congr 1
    funext z
    rw [hc, hdd]
    congr 1
    ring
  have mm : Measurable fun z : ℝ × ℝ => (a * z.1, c * z.1 + d * z.2) := by fun_prop
  have mg := tg.meas
  have mg' := tg'.meas
  have mk := tk.meas
  have mk' := tk'.meas
  have n0 : Measurable (fun x : ℝ × ℝ => x.1 * (g x.1 * k x.2)) := by fun_prop
  have n1 : Measurable (fun x : ℝ × ℝ => g x.1 * k x.2) := by fun_prop
  have n2 : Measurable (fun x : ℝ × ℝ => g' x.1 * k x.2) := by fun_prop
  have n3 : Measurable (fun x : ℝ × ℝ => g x.1 * k' x.2) := by fun_prop
  clear_value a c d
  subst hP
  rw [integrable_map_measure n0.aestronglyMeasurable mm.aemeasurable] at s0
  rw [integrable_map_measure n1.aestronglyMeasurable mm.aemeasurable] at s1
  rw [integrable_map_measure n2.aestronglyMeasurable mm.aemeasurable] at s2
  rw [integrable_map_measure n3.aestronglyMeasurable mm.aemeasurable] at s3
  rw [integral_map mm.aemeasurable n0.aestronglyMeasurable, integral_map mm.aemeasurable n2.aestronglyMeasurable,
    integral_map mm.aemeasurable n3.aestronglyMeasurable]
  simp only [Function.comp_def] at s0 s1 s2 s3
  by_cases a0 : a = 0
  · subst a0
    simp [← ea, ← eac]
  have s0' : Integrable (fun z : ℝ × ℝ => z.1 * (g (a * z.1) * k (c * z.1 + d * z.2))) std2 := by
    refine (s0.const_mul a⁻¹).congr (Filter.Eventually.of_forall fun z => ?_)
    field_simp
  have e0 : ∀ z : ℝ × ℝ, a * z.1 * (g (a * z.1) * k (c * z.1 + d * z.2)) = a * (z.1 * (g (a * z.1) * k (c * z.1 + d * z.2))) := fun z => by ring
  simp only [e0]
  rw [integral_const_mul, ← ea, ← eac, mul_assoc, mul_assoc, ← mul_add]
  congr 1
  rw [← integral_const_mul a, ← integral_const_mul c, ← integral_add (s2.const_mul a) (s3.const_mul c)]
  have hs : std2 = std.prod std := rfl
  rw [hs] at s0' s1 s2 s3 ⊢
  have hp : IsProbabilityMeasure std := by unfold std; infer_instance
  have s4 : Integrable (fun z : ℝ × ℝ => a * (g' (a * z.1) * k (c * z.1 + d * z.2)) + c * (g (a * z.1) * k' (c * z.1 + d * z.2))) (std.prod std) :=
    (s2.const_mul a).add (s3.const_mul c)
  rw [integral_prod_symm _ s0', integral_prod_symm _ s4]
  refine integral_congr_ae ?_
  filter_upwards [s0'.prod_left_ae, s1.prod_left_ae, s2.prod_left_ae, s3.prod_left_ae] with y r0 r1 r2 r3
  refine std_stein_fun (p := fun z => g (a * z) * k (c * z + d * y)) (fun z => ?_) r1 r0 ((r2.const_mul a).add (r3.const_mul c))
  have d1 : HasDerivAt (fun z => g (a * z)) (g' (a * z) * a) z := (dg (a * z)).comp z (by simpa using (hasDerivAt_id z).const_mul a)
  have d2 : HasDerivAt (fun z => k (c * z + d * y)) (k' (c * z + d * y) * c) z :=
    (dk (c * z + d * y)).comp z (by simpa using ((hasDerivAt_id z).const_mul c).add_const (d * y))
  exact (d1.mul d2).congr_deriv (by ring)

/-- Stein's identity for the second variable. -/
lemma _root_.NT.Spec.GaussPair.stein2 (h : GaussPair P q11 q12 q22) {g g' k k' : ℝ → ℝ} (dg : ∀ x, HasDerivAt g (g' x) x)
    (dk : ∀ x, HasDerivAt k (k' x) x) (tg : Tame g) (tg' : Tame g') (tk : Tame k) (tk' : Tame k') :
    ∫ x, x.2 * (g x.1 * k x.2) ∂P = q22 * ∫ x, g x.1 * k' x.2 ∂P + q12 * ∫ x, g' x.1 * k x.2 ∂P := by
  have hs := h.swap.stein dk dg tk tk' tg tg'
  have mg := tg.meas
  have mg' := tg'.meas
  have mk := tk.meas
  have mk' := tk'.meas
  rw [integral_map (by fun_prop) (Measurable.aestronglyMeasurable (by fun_prop)), integral_map (by fun_prop) (Measurable.aestronglyMeasurable (by fun_prop)),
    integral_map (by fun_prop) (Measurable.aestronglyMeasurable (by fun_prop))] at hs
  simp only [Prod.fst_swap, Prod.snd_swap] at hs
  simpa only [mul_comm (k _) (g _), mul_comm (k' _) (g _), mul_comm (k _) (g' _)] using hs

end NT.Gauss
