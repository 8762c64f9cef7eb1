import Verif.Lemmas.GaussPair
import Mathlib.MeasureTheory.Integral.IntegralEqImproper
import Mathlib.Algebra.Polynomial.Derivative
import Mathlib.Analysis.Calculus.Deriv.Polynomial

/-!
# Mixed moments of Gaussian pairs
-/

namespace NT.Gauss
open MeasureTheory ProbabilityTheory Spec

lemma std_integrable_poly (p : Polynomial ℝ) : Integrable (fun z => p.eval z) std := by
  have : ∀ n : ℕ, Integrable (fun z : ℝ => z ^ n) std := by
    intro n
    have h : MemLp (fun z : ℝ => z) n std := by
      unfold std
      exact memLp_id_gaussianReal' (n : ENNReal) (by simp)
    have := h.integrable_norm_pow'
    refine (integrable_norm_iff (by fun_prop)).1 ?_
    simpa [norm_pow] using this
  simp only [Polynomial.eval_eq_sum_range]
  exact integrable_finsetSum _ fun i _ => (this i).const_mul _

/-- Stein's identity for polynomials. -/
lemma std_stein (p : Polynomial ℝ) : ∫ z, z * p.eval z ∂std = ∫ z, p.derivative.eval z ∂std := by
  have hd : ∀ z : ℝ, HasDerivAt (fun z => -gaussianPDFReal 0 1 z) (z * gaussianPDFReal 0 1 z) z := by
    intro z
    have h1 : HasDerivAt (fun z : ℝ => -(z - 0) ^ 2 / (2 * ((1 : NNReal) : ℝ))) (-z) z := by
      have h2 : HasDerivAt (fun z : ℝ => z ^ 2) (2 * z) z := by simpa using hasDerivAt_pow 2 z
      have h3 := h2.neg.div_const 2
      simp only [sub_zero, NNReal.coe_one, mul_one]
      exact h3.congr_deriv (by ring)
    have := (h1.exp.const_mul (Real.sqrt (2 * Real.pi * ((1 : NNReal) : ℝ)))⁻¹).neg
    unfold gaussianPDFReal
    exact this.congr_deriv (by ring)
  have hi : ∀ q : Polynomial ℝ, Integrable (fun z => q.eval z * gaussianPDFReal 0 1 z) := by
    intro q
    have := std_integrable_poly q
    unfold std at this
    rw [gaussianReal_of_var_ne_zero 0 one_ne_zero, integrable_withDensity_iff_integrable_smul' (measurable_gaussianPDF 0 1)
      (Filter.Eventually.of_forall fun z => gaussianPDF_lt_top)] at this
    refine this.congr (Filter.Eventually.of_forall fun z => ?_)
    simp only [toReal_gaussianPDF, smul_eq_mul]
    ring
  have hs : ∀ f : ℝ → ℝ, ∫ z, f z ∂std = ∫ z, f z * gaussianPDFReal 0 1 z := by
    intro f
    unfold std
    rw [integral_gaussianReal_eq_integral_smul one_ne_zero]
    congr 1
    funext z
    rw [smul_eq_mul, mul_comm]
  rw [hs, hs]
  have h := integral_mul_deriv_eq_deriv_mul_of_integrable (u := fun z => p.eval z) (u' := fun z => p.derivative.eval z)
    (v := fun z => -gaussianPDFReal 0 1 z) (v' := fun z => z * gaussianPDFReal 0 1 z)
    (fun z _ => p.hasDerivAt z) (fun z _ => hd z) ?_ ?_ ?_
  · have e1 : (fun z => z * p.eval z * gaussianPDFReal 0 1 z) = fun z => p.eval z * (z * gaussianPDFReal 0 1 z) := by
      funext z; ring
    rw [e1, h, ← integral_neg]
    congr 1
    funext z
    ring
  · have := hi (p * Polynomial.X)
    refine this.congr (Filter.Eventually.of_forall fun z => ?_)
    simp only [Polynomial.eval_mul, Polynomial.eval_X, Pi.mul_apply]
    ring
  · have := (hi p.derivative).neg
    refine this.congr (Filter.Eventually.of_forall fun z => ?_)
    simp only [Pi.mul_apply, Pi.neg_apply]
    ring
  · have := (hi p).neg
    refine this.congr (Filter.Eventually.of_forall fun z => ?_)
    simp only [Pi.mul_apply, Pi.neg_apply]
    ring

variable {P : Measure (ℝ × ℝ)} {q11 q12 q22 : ℝ}

lemma integrable_pow_fst [IsGaussian P] (n : ℕ) : Integrable (fun x : ℝ × ℝ => x.1 ^ n) P := by
  have := (memLp_fst (P := P) n (by simp)).integrable_norm_pow'
  refine (integrable_norm_iff (by fun_prop)).1 ?_
  simpa [norm_pow] using this

lemma integrable_pow_snd [IsGaussian P] (n : ℕ) : Integrable (fun x : ℝ × ℝ => x.2 ^ n) P := by
  have := (memLp_snd (P := P) n (by simp)).integrable_norm_pow'
  refine (integrable_norm_iff (by fun_prop)).1 ?_
  simpa [norm_pow] using this

lemma integrable_mono [IsGaussian P] (m n : ℕ) : Integrable (fun x : ℝ × ℝ => x.1 ^ m * x.2 ^ n) P := by
  have h1 := integrable_pow_fst (P := P) (2 * m)
  have h2 := integrable_pow_snd (P := P) (2 * n)
  refine (h1.add h2).mono (by fun_prop) (Filter.Eventually.of_forall fun x => ?_)
  simp only [Real.norm_eq_abs, abs_mul, Pi.add_apply]
  rw [abs_of_nonneg (a := x.1 ^ (2 * m) + x.2 ^ (2 * n)) (by rw [pow_mul, pow_mul]; positivity)]
  have e1 : x.1 ^ (2 * m) = |x.1 ^ m| ^ 2 := by rw [sq_abs]; ring
  have e2 : x.2 ^ (2 * n) = |x.2 ^ n| ^ 2 := by rw [sq_abs]; ring
  rw [e1, e2]
  nlinarith [sq_nonneg (|x.1 ^ m| - |x.2 ^ n|), sq_nonneg (|x.1 ^ m|), sq_nonneg (|x.2 ^ n|)]

/-- The mixed moments. -/
noncomputable def moment (P : Measure (ℝ × ℝ)) (m n : ℕ) : ℝ := ∫ x, x.1 ^ m * x.2 ^ n ∂P

/-- Stein's identity for the mixed moments. -/
lemma _root_.NT.Spec.GaussPair.moment_succ (h : GaussPair P q11 q12 q22) (m n : ℕ) :
    moment P (m + 1) n = m * q11 * moment P (m - 1) n + n * q12 * moment P m (n - 1) := by
  have hg := h.gaussian
  obtain ⟨θ, -, -, t3, -, t5⟩ := h.repr
  set a := Real.sqrt q11 with ha
  set c := Real.sqrt q22 * Real.cos θ with hc
  set d := Real.sqrt q22 * Real.sin θ with hdd
  have ea : a ^ 2 = q11 := Real.sq_sqrt h.nonneg1
  have eac : a * c = q12 := by rw [t3, hc]; ring
  have hP : P = std2.map (fun z => (a * z.1, c * z.1 + d * z.2)) := by
    rw [t5]
    congr 1
    funext z
    rw [hc, hdd]
    congr 1
    ring
  clear_value a c d
  have hmap : ∀ f : ℝ × ℝ → ℝ, Measurable f → ∫ x, f x ∂P = ∫ z, f (a * z.1, c * z.1 + d * z.2) ∂std2 := by
    intro f hf
    rw [hP, integral_map (by fun_prop) hf.aestronglyMeasurable]
  have himap : ∀ f : ℝ × ℝ → ℝ, Measurable f → Integrable f P →
      Integrable (fun z => f (a * z.1, c * z.1 + d * z.2)) std2 := by
    intro f hf hi
    rw [hP] at hi
    exact (integrable_map_measure hf.aestronglyMeasurable (by fun_prop)).1 hi
  have key : ∀ m n, ∫ z : ℝ × ℝ, z.1 * ((a * z.1) ^ m * (c * z.1 + d * z.2) ^ n) ∂std2 =
      m * a * moment P (m - 1) n + n * c * moment P m (n - 1) := by
    intro m n
    have j1 := himap _ (by fun_prop) (integrable_mono (P := P) (m - 1) n)
    have j2 := himap _ (by fun_prop) (integrable_mono (P := P) m (n - 1))
    have j3 : Integrable (fun z : ℝ × ℝ => z.1 * ((a * z.1) ^ m * (c * z.1 + d * z.2) ^ n)) std2 := by
      have h1 := himap _ (by fun_prop) (integrable_mono (P := P) m n)
      have hs : MemLp (fun z : ℝ × ℝ => (a * z.1) ^ m * (c * z.1 + d * z.2) ^ n) 2 std2 := by
        rw [memLp_two_iff_integrable_sq h1.1]
        have := himap _ (by fun_prop) (integrable_mono (P := P) (2 * m) (2 * n))
        refine this.congr (Filter.Eventually.of_forall fun z => ?_)
        simp only
        ring
      have hg2 := std2_pair.gaussian
      exact (memLp_fst (P := std2) 2 (by norm_num)).integrable_mul hs
    have hin : ∀ y, ∫ x, x * ((a * x) ^ m * (c * x + d * y) ^ n) ∂std =
        ∫ x, (m * a * ((a * x) ^ (m - 1) * (c * x + d * y) ^ n) + n * c * ((a * x) ^ m * (c * x + d * y) ^ (n - 1))) ∂std := by
      intro y
      have := std_stein ((Polynomial.C a * Polynomial.X) ^ m * (Polynomial.C c * Polynomial.X + Polynomial.C (d * y)) ^ n)
      simp only [Polynomial.eval_mul, Polynomial.eval_pow, Polynomial.eval_C, Polynomial.eval_X, Polynomial.eval_add,
        Polynomial.derivative_mul, Polynomial.derivative_pow, Polynomial.derivative_C, Polynomial.derivative_X,
        Polynomial.derivative_add, Polynomial.eval_zero, zero_mul, mul_one, zero_add,
        Polynomial.C_mul] at this
      rw [this]
      congr 1
      funext x
      ring
    have j4 : Integrable (fun z : ℝ × ℝ => m * a * ((a * z.1) ^ (m - 1) * (c * z.1 + d * z.2) ^ n) +
        n * c * ((a * z.1) ^ m * (c * z.1 + d * z.2) ^ (n - 1))) std2 := (j1.const_mul _).add (j2.const_mul _)
    have e1 : ∫ z : ℝ × ℝ, z.1 * ((a * z.1) ^ m * (c * z.1 + d * z.2) ^ n) ∂std2 =
        ∫ z : ℝ × ℝ, (m * a * ((a * z.1) ^ (m - 1) * (c * z.1 + d * z.2) ^ n) +
          n * c * ((a * z.1) ^ m * (c * z.1 + d * z.2) ^ (n - 1))) ∂std2 := by
      unfold std2 at j3 j4 ⊢
      rw [integral_prod_symm _ j3, integral_prod_symm _ j4]
      congr 1
      funext y
      exact hin y
    rw [e1, integral_add (j1.const_mul _) (j2.const_mul _), integral_const_mul, integral_const_mul]
    unfold moment
    rw [hmap _ (by fun_prop), hmap _ (by fun_prop)]
  have e : moment P (m + 1) n = a * ∫ z : ℝ × ℝ, z.1 * ((a * z.1) ^ m * (c * z.1 + d * z.2) ^ n) ∂std2 := by
    unfold moment
    rw [hmap _ (by fun_prop), ← integral_const_mul]
    congr 1
    funext z
    ring
  rw [e, key, ← ea, ← eac]
  ring

lemma _root_.NT.Spec.GaussPair.moment_swap (P : Measure (ℝ × ℝ)) (m n : ℕ) :
    moment (P.map Prod.swap) m n = moment P n m := by
  unfold moment
  rw [integral_map (by fun_prop) (by fun_prop)]
  congr 1
  funext x
  simp only [Prod.fst_swap, Prod.snd_swap]
  ring

/-- The moments of a centred Gaussian variable of variance `q`. -/
noncomputable def mom (q : ℝ) : ℕ → ℝ
  | 0 => 1
  | 1 => 0
  | k + 2 => (k + 1) * q * mom q k

lemma mom_succ (q : ℝ) (k : ℕ) : mom q (k + 1) = k * q * mom q (k - 1) := by
  cases k with
  | zero => simp [mom]
  | succ k => rw [mom]; simp

lemma moment_left (h : GaussPair P q11 q12 q22) (k : ℕ) : moment P k 0 = mom q11 k := by
  have hg := h.gaussian
  induction k using Nat.strong_induction_on with
  | _ k ih =>
    cases k with
    | zero => simp [moment, mom]
    | succ k =>
      rw [h.moment_succ, mom_succ]
      cases k with
      | zero => simp
      | succ k =>
        rw [ih (k + 1 - 1) (by omega)]
        simp

lemma moment_right (h : GaussPair P q11 q12 q22) (k : ℕ) : moment P 0 k = mom q22 k := by
  rw [← GaussPair.moment_swap]
  exact moment_left h.swap k

/-- The expectation of the `l`-th derivative of `x ^ m`. -/
noncomputable def dmom (q : ℝ) (l m : ℕ) : ℝ := m.descFactorial l * mom q (m - l)

lemma dmom_zero (q : ℝ) (m : ℕ) : dmom q 0 m = mom q m := by simp [dmom]

lemma dmom_lt (q : ℝ) {l m : ℕ} (h : m < l) : dmom q l m = 0 := by
  unfold dmom
  rw [Nat.descFactorial_of_lt h]
  simp

lemma dmom_deriv (q : ℝ) (l n : ℕ) : dmom q (l + 1) n = n * dmom q l (n - 1) := by
  unfold dmom
  cases n with
  | zero => simp
  | succ n =>
    rw [Nat.succ_descFactorial_succ, Nat.add_sub_add_right, Nat.add_sub_cancel]
    push_cast
    ring

lemma dmom_succ (q : ℝ) (l m : ℕ) : dmom q (l + 1) (m + 1) = m * q * dmom q (l + 1) (m - 1) + (l + 1) * dmom q l m := by
  rw [dmom_deriv]
  simp only [Nat.add_sub_cancel]
  rcases Nat.lt_trichotomy l m with h | rfl | h
  · -- `l < m`
    unfold dmom
    obtain ⟨k, rfl⟩ : ∃ k, m = l + 1 + k := ⟨m - (l + 1), by omega⟩
    have e1 : l + 1 + k - l = k + 1 := by omega
    rw [e1, mom_succ]
    cases k with
    | zero =>
      have : (l + 1 + 0 - 1).descFactorial (l + 1) = 0 := Nat.descFactorial_of_lt (by omega)
      rw [this]
      simp
    | succ k =>
      have e2 : l + 1 + (k + 1) - 1 - (l + 1) = k := by omega
      have e3 : k + 1 - 1 = k := by omega
      have e4 : l + 1 + (k + 1) - 1 = l + k + 1 := by omega
      have e5 : l + 1 + (k + 1) = l + k + 1 + 1 := by omega
      rw [e2, e3, e4, e5]
      -- `(l + k + 2) (k + 1) desc = ...`
      have d1 : ((l + k + 1 + 1).descFactorial l : ℝ) * (k + 2) = (l + k + 1 + 1).descFactorial (l + 1) := by
        rw [Nat.descFactorial_succ]
        rw [show l + k + 1 + 1 - l = k + 2 by omega]
        push_cast
        ring
      have d2 : ((l + k + 1 + 1).descFactorial (l + 1) : ℝ) = (l + k + 2) * (l + k + 1).descFactorial l := by
        rw [Nat.succ_descFactorial_succ]
        push_cast
        ring
      have d3 : ((l + k + 1).descFactorial (l + 1) : ℝ) = (k + 1) * (l + k + 1).descFactorial l := by
        rw [Nat.descFactorial_succ, show l + k + 1 - l = k + 1 by omega]
        push_cast
        ring
      have d4 : ((l + k + 1 + 1).descFactorial l : ℝ) * (k + 2) = (l + k + 2) * (l + k + 1).descFactorial l := by
        rw [d1, d2]
      rw [d3]
      push_cast
      have hk : (k : ℝ) + 2 ≠ 0 := by positivity
      have d5 : ((l + k + 1 + 1).descFactorial l : ℝ) = (l + k + 2) * (l + k + 1).descFactorial l / (k + 2) := by
        rw [eq_div_iff hk, d4]
      rw [d5]
      field_simp
      ring
  · rw [dmom_lt q (show l - 1 < l + 1 by omega)]
    push_cast
    ring
  · rw [dmom_lt q h, dmom_lt q (show m - 1 < l + 1 by omega)]
    ring

/-- Mehler's formula for monomials. -/
lemma _root_.NT.Spec.GaussPair.mehler (h : GaussPair P q11 q12 q22) (K : ℕ) (m n : ℕ) (hm : m < K) :
    moment P m n = ∑ l ∈ Finset.range K, q12 ^ l / l.factorial * (dmom q11 l m * dmom q22 l n) := by
  induction m using Nat.strong_induction_on generalizing n with
  | _ m ih =>
    cases m with
    | zero =>
      rw [moment_right h, Finset.sum_eq_single_of_mem 0 (Finset.mem_range.2 (by omega))]
      · simp [dmom_zero, mom]
      · intro l _ hl
        rw [dmom_lt q11 (Nat.pos_of_ne_zero hl)]
        simp
    | succ m =>
      obtain ⟨K, rfl⟩ : ∃ K', K = K' + 1 := ⟨K - 1, by omega⟩
      have ih2 := ih m (by omega) (n - 1) (by omega)
      have ih1 : (m : ℝ) * q11 * moment P (m - 1) n =
          m * q11 * ∑ l ∈ Finset.range (K + 1), q12 ^ l / l.factorial * (dmom q11 l (m - 1) * dmom q22 l n) := by
        rcases Nat.eq_zero_or_pos m with rfl | hpos
        · simp
        · rw [ih (m - 1) (by omega) n (by omega)]
      rw [Finset.sum_range_succ] at ih2
      rw [h.moment_succ, ih1, ih2, Finset.sum_range_succ' _ K, Finset.sum_range_succ' _ K]
      have hz : dmom q11 K m = 0 := dmom_lt _ (by omega)
      rw [hz, zero_mul, mul_zero, add_zero, mul_add, Finset.mul_sum, Finset.mul_sum]
      have hterm : ∀ l, q12 ^ (l + 1) / (l + 1).factorial * (dmom q11 (l + 1) (m + 1) * dmom q22 (l + 1) n) =
          m * q11 * (q12 ^ (l + 1) / (l + 1).factorial * (dmom q11 (l + 1) (m - 1) * dmom q22 (l + 1) n)) +
          n * q12 * (q12 ^ l / l.factorial * (dmom q11 l m * dmom q22 l (n - 1))) := by
        intro l
        rw [dmom_succ, dmom_deriv q22 l n, Nat.factorial_succ]
        push_cast
        have h1 : ((l : ℝ) + 1) ≠ 0 := by positivity
        have h2 : (l.factorial : ℝ) ≠ 0 := by positivity
        field_simp
        ring
      simp only [hterm, Finset.sum_add_distrib, dmom_zero, mom_succ]
      simp only [pow_zero, Nat.factorial_zero, Nat.cast_one, div_one, one_mul]
      ring

end NT.Gauss
