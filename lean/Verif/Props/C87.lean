import Verif.Tac
import Verif.Lemmas.Elementwise
import Verif.Lemmas.GaussMoments
import Verif.Props.C42
import Mathlib.RingTheory.Polynomial.Hermite.Basic

/-!
# C87: the `Hermite` layer computes the Gaussian expectations
-/

namespace NT.C87
open NT Arr Kernel Spec MeasureTheory Gauss Polynomial

variable {P : Measure (ℝ × ℝ)} {q11 q12 q22 : ℝ}

lemma integrable_poly2 [ProbabilityTheory.IsGaussian P] (p q : ℝ[X]) : Integrable (fun x : ℝ × ℝ => p.eval x.1 * q.eval x.2) P := by
  have e : (fun x : ℝ × ℝ => p.eval x.1 * q.eval x.2) = fun x =>
      ∑ i ∈ Finset.range (p.natDegree + 1), ∑ j ∈ Finset.range (q.natDegree + 1), p.coeff i * q.coeff j * (x.1 ^ i * x.2 ^ j) := by
    funext x
    rw [eval_eq_sum_range, eval_eq_sum_range, Finset.sum_mul_sum]
    exact Finset.sum_congr rfl fun i _ => Finset.sum_congr rfl fun j _ => by ring
  rw [e]
  exact integrable_finsetSum _ fun i _ => integrable_finsetSum _ fun j _ => (integrable_mono i j).const_mul _

/-- The expectation of `p(u) q(v)`. -/
noncomputable def ex (P : Measure (ℝ × ℝ)) (p q : ℝ[X]) : ℝ := ∫ x, p.eval x.1 * q.eval x.2 ∂P

lemma ex_add_left [ProbabilityTheory.IsGaussian P] (p p' q : ℝ[X]) : ex P (p + p') q = ex P p q + ex P p' q := by
  unfold ex
  rw [← integral_add (integrable_poly2 p q) (integrable_poly2 p' q)]
  congr 1
  funext x
  rw [eval_add]
  ring

lemma ex_add_right [ProbabilityTheory.IsGaussian P] (p q q' : ℝ[X]) : ex P p (q + q') = ex P p q + ex P p q' := by
  unfold ex
  rw [← integral_add (integrable_poly2 p q) (integrable_poly2 p q')]
  congr 1
  funext x
  rw [eval_add]
  ring

lemma ex_C_mul_left (c : ℝ) (p q : ℝ[X]) : ex P (C c * p) q = c * ex P p q := by
  unfold ex
  rw [← integral_const_mul]
  congr 1
  funext x
  rw [eval_mul, eval_C]
  ring

lemma ex_C_mul_right (c : ℝ) (p q : ℝ[X]) : ex P p (C c * q) = c * ex P p q := by
  unfold ex
  rw [← integral_const_mul]
  congr 1
  funext x
  rw [eval_mul, eval_C]
  ring

lemma ex_sub_left [ProbabilityTheory.IsGaussian P] (p p' q : ℝ[X]) : ex P (p - p') q = ex P p q - ex P p' q := by
  have := ex_add_left (P := P) (p - p') p' q
  rw [sub_add_cancel] at this
  linarith

lemma ex_mono (a b : ℝ) (m n : ℕ) : ex P (C a * X ^ m) (C b * X ^ n) = a * b * moment P m n := by
  rw [ex_C_mul_left, ex_C_mul_right]
  unfold ex moment
  simp only [eval_pow, eval_X]
  ring

/-- Stein's identity for polynomials. -/
lemma stein (h : GaussPair P q11 q12 q22) (p q : ℝ[X]) : ex P (X * p) q = q11 * ex P (derivative p) q + q12 * ex P p (derivative q) := by
  have hg := h.gaussian
  induction p using Polynomial.induction_on' with
  | add p p' h1 h2 =>
    rw [mul_add, ex_add_left, derivative_add, ex_add_left, ex_add_left, h1, h2]
    ring
  | monomial m a =>
    induction q using Polynomial.induction_on' with
    | add q q' h1 h2 =>
      rw [ex_add_right, derivative_add, ex_add_right, ex_add_right, h1, h2]
      ring
    | monomial n b =>
      have e1 : X * monomial m a = C a * X ^ (m + 1) := by rw [← C_mul_X_pow_eq_monomial]; ring
      rw [e1, derivative_monomial, derivative_monomial, ← C_mul_X_pow_eq_monomial, ← C_mul_X_pow_eq_monomial, ← C_mul_X_pow_eq_monomial,
        ← C_mul_X_pow_eq_monomial, ex_mono, ex_mono, ex_mono, h.moment_succ]
      ring

/-- The Hermite polynomials. -/
noncomputable def H (n : ℕ) : ℝ[X] := (hermite n).map (Int.castRingHom ℝ)

lemma H_succ (n : ℕ) : H (n + 1) = X * H n - derivative (H n) := by
  unfold H
  rw [hermite_succ, Polynomial.map_sub, Polynomial.map_mul, map_X, derivative_map]

lemma H_deriv (n : ℕ) : derivative (H (n + 1)) = C ((n + 1 : ℕ) : ℝ) * H n := by
  induction n with
  | zero => simp [H]
  | succ n ih =>
    rw [H_succ (n + 1), derivative_sub, derivative_mul, derivative_X, ih, derivative_C_mul]
    have := H_succ n
    rw [show derivative (H n) = X * H n - H (n + 1) by rw [this]; ring]
    push_cast
    simp only [map_add, map_one, map_natCast]
    ring

lemma hermeVal_eq (n : ℕ) (x : ℝ) : hermeVal n x = (H n).eval x ∧ hermeVal (n + 1) x = (H (n + 1)).eval x := by
  induction n with
  | zero => simp [hermeVal, H]
  | succ n ih =>
    refine ⟨ih.2, ?_⟩
    rw [hermeVal, ih.1, ih.2, H_succ (n + 1), H_deriv]
    simp

lemma ex_H (h : GaussPair P 1 q12 q22) (n : ℕ) (q : ℝ[X]) : ex P (H n) q = q12 ^ n * ex P 1 (derivative^[n] q) := by
  have hg := h.gaussian
  induction n generalizing q with
  | zero => simp [H]
  | succ n ih =>
    rw [H_succ, ex_sub_left, stein h, ih (derivative q), Function.iterate_succ_apply]
    ring

lemma iter_H (n : ℕ) : derivative^[n] (H n) = C ((n.factorial : ℕ) : ℝ) := by
  have : ∀ n, ∀ c : ℝ, derivative^[n] (C c * H n) = C (c * (n.factorial : ℕ)) := by
    intro n
    induction n with
    | zero => simp [H]
    | succ n ih =>
      intro c
      rw [Function.iterate_succ_apply, derivative_C_mul, H_deriv, ← mul_assoc, ← C_mul, ih]
      rw [Nat.factorial_succ]
      push_cast
      ring_nf
  simpa using this n 1

/-- The Hermite polynomials are orthogonal with norm `n!`, and correlations are raised to the power `n`. -/
lemma ex_HH (h : GaussPair P 1 q12 q22) (n : ℕ) : ex P (H n) (H n) = q12 ^ n * n.factorial := by
  have hg := h.gaussian
  rw [ex_H h, iter_H]
  unfold ex
  simp

lemma hermiteFn_eq (n : ℕ) (x : ℝ) : hermiteFn n x = (H n).eval x / Real.sqrt n.factorial := by
  unfold hermiteFn
  rw [(hermeVal_eq n x).1]

lemma deriv_hermiteFn (n : ℕ) : deriv (hermiteFn n) = fun x => (derivative (H n)).eval x / Real.sqrt n.factorial := by
  have : hermiteFn n = fun x => (H n).eval x / Real.sqrt n.factorial := funext fun x => hermiteFn_eq n x
  rw [this]
  funext x
  exact (((H n).hasDerivAt x).div_const _).deriv

lemma hermite_exact (n : ℕ) : (hermiteDual n).Exact (fun v => v = 1) (hermiteFn n) (deriv (hermiteFn n)) where
  diag v _ := rfl
  nngp {P q11 q12 q22} hP h1 h2 := by
    subst h1
    have e : (fun x : ℝ × ℝ => hermiteFn n x.1 * hermiteFn n x.2) = fun x => (1 / (n.factorial : ℝ)) * ((H n).eval x.1 * (H n).eval x.2) := by
      funext x
      have : Real.sqrt n.factorial * Real.sqrt n.factorial = n.factorial := Real.mul_self_sqrt (Nat.cast_nonneg _)
      rw [hermiteFn_eq, hermiteFn_eq, div_mul_div_comm, this]
      ring
    have f : (n.factorial : ℝ) ≠ 0 := Nat.cast_ne_zero.2 n.factorial_ne_zero
    rw [e, integral_const_mul, show ∫ x, (H n).eval x.1 * (H n).eval x.2 ∂P = q12 ^ n * n.factorial from ex_HH hP n]
    simp only [hermiteDual]
    field_simp
  dot {P q11 q12 q22} hP h1 h2 := by
    subst h1
    rw [deriv_hermiteFn]
    have e : (fun x : ℝ × ℝ => (derivative (H n)).eval x.1 / Real.sqrt n.factorial * ((derivative (H n)).eval x.2 / Real.sqrt n.factorial)) =
        fun x => (1 / (n.factorial : ℝ)) * ((derivative (H n)).eval x.1 * (derivative (H n)).eval x.2) := by
      funext x
      have : Real.sqrt n.factorial * Real.sqrt n.factorial = n.factorial := Real.mul_self_sqrt (Nat.cast_nonneg _)
      rw [div_mul_div_comm, this]
      ring
    rw [e, integral_const_mul]
    have e2 : ∫ x, (derivative (H n)).eval x.1 * (derivative (H n)).eval x.2 ∂P = ex P (derivative (H n)) (derivative (H n)) := rfl
    rw [e2]
    cases n with
    | zero => simp [hermiteDual, H, ex]
    | succ n =>
      rw [H_deriv, ex_C_mul_left, ex_C_mul_right, ex_HH hP]
      simp only [hermiteDual, if_neg n.succ_ne_zero, Nat.add_sub_cancel, Nat.factorial_succ]
      have f : (n.factorial : ℝ) ≠ 0 := Nat.cast_ne_zero.2 n.factorial_ne_zero
      have g : ((n : ℝ) + 1) ≠ 0 := by positivity
      push_cast
      field_simp

/-- `Hermite(degree)`: on inputs of unit variance, as documented, the result stores the expectations for the function applied to the activations. -/
theorem kernel_exact (degree : ℕ) (k : Kernel ℝ) (L : Logical ℝ) (hk : k.Stores L) (hc : L.Closed) (hv : L.Vars (fun v => v = 1))
    (hg : k.isGaussian = true) :
    ∃ k' L', hermiteKernelFn degree k = .ok k' ∧ k'.Stores L' ∧ AfterElementwise k k' ∧ DualOf (hermiteFn degree) (deriv (hermiteFn degree)) L L' := by
  obtain ⟨k0, h0, h1, h2, h3, h4, h5, -⟩ := (hermiteDual degree).kernelFn_ok hk hc hv (hermite_exact degree).diag
  obtain ⟨k', g1, g2, g3⟩ := elementwise_ok (f := (hermiteDual degree).kernelFn) hg h0 h1 h2 h3 h4 h5
  refine ⟨k', _, ?_, g2, g3, (hermite_exact degree).dualOf hc hv⟩
  unfold hermiteKernelFn
  rw [if_neg (by omega)]
  exact g1

/-- The function applied to the activations is the Hermite polynomial of the degree, divided by its norm. -/
theorem apply_eq (degree : ℕ) (x : ℝ) : hermiteFn degree x = aeval x (hermite degree) / Real.sqrt degree.factorial := by
  rw [hermiteFn_eq, H, eval_map, aeval_def]
  rfl

/-- As documented, its mean square under the standard Gaussian distribution is 1. -/
theorem unit_norm (degree : ℕ) : ∫ x, hermiteFn degree x ^ 2 ∂ProbabilityTheory.gaussianReal 0 1 = 1 := by
  have hP := std2_pair.map_pair 1 0 1 0
  have h := (hermite_exact degree).nngp hP (by norm_num) (by norm_num)
  have hc : Continuous (hermiteFn degree) := by
    have : hermiteFn degree = fun x => (H degree).eval x / Real.sqrt degree.factorial := funext fun x => hermiteFn_eq degree x
    rw [this]
    exact (H degree).continuous.div_const _
  rw [integral_map (by fun_prop) (Continuous.aestronglyMeasurable (by fun_prop))] at h
  simp only [hermiteDual, one_mul, zero_mul, add_zero, mul_one, mul_zero, one_pow] at h
  rw [h]
  have e := integral_fun_fst (μ := std) (ν := std) (fun x => hermiteFn degree x * hermiteFn degree x)
  have hp : IsProbabilityMeasure std := by unfold std; infer_instance
  simp only [probReal_univ, one_smul] at e
  rw [show std2 = std.prod std from rfl, e]
  exact integral_congr_ae (Filter.Eventually.of_forall fun x => pow_two _)

/-- Negative degrees are rejected. -/
theorem degree_rejected (degree : ℤ) (k : Kernel ℝ) (h : degree < 0) : hermiteKernelFn degree k = .error .notImplemented := by
  unfold hermiteKernelFn
  rw [if_pos h]

/-- A kernel of unit variances. -/
noncomputable def unitL : Logical ℝ :=
  { C42.exL with
    k12 := fun b p q => C42.exL.k12 b p q / 2
    k11 := fun b p q => C42.exL.k11 b p q / 2 }

lemma unit_stores (db ds rev : Bool) : ({ unitL.encode db ds rev with isGaussian := true } : Kernel ℝ).Stores unitL := by
  have hst := unitL.encode_stores db ds rev (fun _ => rfl) rfl
  exact ⟨hst.nngp, hst.cov1, hst.cov2, hst.ntk⟩

example (degree : ℕ) (db ds rev : Bool) : ∃ k' L', hermiteKernelFn degree { unitL.encode db ds rev with isGaussian := true } = .ok k' ∧ k'.Stores L' ∧
    DualOf (hermiteFn degree) (deriv (hermiteFn degree)) unitL L' := by
  obtain ⟨k', L', h1, h2, -, h3⟩ := kernel_exact degree _ unitL (unit_stores db ds rev) (by simp [Logical.Closed, unitL, C42.exL])
    ⟨fun i p _ _ => by simp [unitL, C42.exL], fun F hF i p _ _ => by
      obtain rfl := Option.some.inj hF
      simp⟩ rfl
  exact ⟨k', L', h1, h2, h3⟩

example : hermiteFn 2 3 = 8 / Real.sqrt 2 := by norm_num [hermiteFn, hermeVal]

example (k : Kernel ℝ) : hermiteKernelFn (-1) k = .error .notImplemented := degree_rejected (-1) k (by norm_num)

end NT.C87
