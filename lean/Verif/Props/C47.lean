import Verif.Lemmas.Elementwise
import Verif.Lemmas.GaussMoments
import Verif.Lemmas.GaussRect
import Verif.Props.C44

/-!
# C47: the `Monomial` and `RectifiedMonomial` layers compute the Gaussian expectations
-/

namespace NT.C47
open NT Arr Kernel Spec MeasureTheory Gauss

lemma pow_pair {P : Measure (ℝ × ℝ)} {q11 q12 q22 : ℝ} (hP : GaussPair P q11 q12 q22) (n : ℕ) :
    ∫ x, x.1 ^ n * x.2 ^ n ∂P = ∑ l ∈ Finset.range (n + 1), q12 ^ l / l.factorial * (dmom q11 l n * dmom q22 l n) :=
  hP.mehler (n + 1) n n (by omega)

lemma nngp_eq {P : Measure (ℝ × ℝ)} {q11 q12 q22 : ℝ} (hP : GaussPair P q11 q12 q22) (n : ℕ) (hn : n ≤ 5) :
    (monomialNngp q12 (q11 * q22) n).getD 0 = ∫ x, x.1 ^ n * x.2 ^ n ∂P := by
  rw [pow_pair hP]
  interval_cases n <;>
    simp [monomialNngp, Finset.sum_range_succ, dmom, mom, Nat.descFactorial, Nat.factorial] <;> ring

lemma df_neg : doubleFactorial (-1) = 1 := rfl

lemma df_succ (n : ℕ) : doubleFactorial (2 * ((n + 1 : ℕ) : ℤ) - 1) = (2 * n + 1).doubleFactorial := by
  rw [show (2 * ((n + 1 : ℕ) : ℤ) - 1) = ((2 * n + 1 : ℕ) : ℤ) by push_cast; ring]
  rfl

lemma monomial_exact (n : ℕ) (hn : n ≤ 5) :
    (monomialDual n).Exact (fun _ => True) (fun x => x ^ n) (deriv fun x => x ^ n) where
  diag v _ := by
    simp only [monomialDual, id]
    rcases n with - | n
    · simp [monomialNngp, df_neg]
    · have hn' : n ≤ 4 := by omega
      rw [df_succ]
      interval_cases n <;> simp [monomialNngp, Nat.doubleFactorial] <;> ring
  nngp {P q11 q12 q22} hP _ _ := nngp_eq hP n hn
  dot {P q11 q12 q22} hP _ _ := by
    have e : (deriv fun x : ℝ => x ^ n) = fun x : ℝ => (n : ℝ) * x ^ (n - 1) := by
      funext x
      simp
    rw [e]
    have e2 : (fun x : ℝ × ℝ => (n * x.1 ^ (n - 1)) * (n * x.2 ^ (n - 1))) = fun x => (n : ℝ) ^ 2 * (x.1 ^ (n - 1) * x.2 ^ (n - 1)) := by
      funext x
      ring
    rw [e2, integral_const_mul]
    simp only [monomialDual, id]
    rcases n with - | n
    · simp
    · have := nngp_eq hP n (by omega)
      rw [Nat.add_sub_cancel, ← this]
      congr 3
      push_cast
      ring

/-- `Monomial(degree)`, `0 ≤ degree ≤ 5`, for all variances: the result stores the expectations for `φ(x) = x ^ degree`. -/
theorem monomial_kernel_exact (degree : ℕ) (hdeg : degree ≤ 5) (k : Kernel ℝ) (L : Logical ℝ) (hk : k.Stores L)
    (hc : L.Closed) (hg : k.isGaussian = true) :
    ∃ k' L', monomialKernelFn degree k = .ok k' ∧ k'.Stores L' ∧ AfterElementwise k k' ∧
      DualOf (fun x => x ^ degree) (deriv fun x => x ^ degree) L L' := by
  have hv : L.Vars (fun _ => True) := ⟨fun _ _ _ _ => trivial, fun _ _ _ _ _ _ => trivial⟩
  obtain ⟨k0, h0, h1, h2, h3, h4, h5, -⟩ := (monomialDual degree).kernelFn_ok hk hc hv (monomial_exact degree hdeg).diag
  obtain ⟨k', g1, g2, g3⟩ := elementwise_ok (f := (monomialDual degree).kernelFn) hg h0 h1 h2 h3 h4 h5
  refine ⟨k', _, ?_, g2, g3, (monomial_exact degree hdeg).dualOf hc hv⟩
  unfold monomialKernelFn
  rw [if_pos (by interval_cases degree <;> simp)]
  exact g1

/-- Other degrees are rejected. -/
theorem monomial_degree_rejected (degree : ℤ) (k : Kernel ℝ) (h : degree < 0 ∨ 5 < degree) :
    monomialKernelFn degree k = .error .notImplemented := by
  unfold monomialKernelFn
  rw [if_neg]
  simp
  omega

/-! ### Rectified monomials -/

/-- The closed formulas, without division by `sin θ`. -/
noncomputable def ideal (n : ℕ) : DualFn ℝ where
  den := id
  op := (· * ·)
  nngp x prod := Real.sqrt prod ^ n / (2 * Real.pi) * (n.factorial * arcA (Real.arccos (x / Real.sqrt prod)) n)
  dot x prod := n ^ 2 * (Real.sqrt prod ^ (n - 1) / (2 * Real.pi) * ((n - 1).factorial *
    arcA (Real.arccos (x / Real.sqrt prod)) (n - 1)))
  diag v := doubleFactorial (2 * n - 1) * v ^ n / 2

lemma arcA_zero (n : ℕ) : n.factorial * arcA 0 n = Real.pi * doubleFactorial (2 * n - 1) := by
  induction n with
  | zero => simp [arcA, df_neg]
  | succ n ih =>
    have e : doubleFactorial (2 * ((n + 1 : ℕ) : ℤ) - 1) = (2 * n + 1) * doubleFactorial (2 * n - 1) := by
      rw [df_succ]
      rcases n with - | n
      · simp [df_neg]
      · rw [df_succ, show 2 * (n + 1) + 1 = 2 * n + 1 + 2 by ring, Nat.doubleFactorial_add_two]
    rw [e]
    push_cast
    have hrec : (n + 1 : ℝ) * arcA 0 (n + 1) = (2 * n + 1) * arcA 0 n := by
      rcases n with - | n
      · simp [arcA]
      · have := arcA_succ2 0 n
        simp only [Real.cos_zero, Real.sin_zero] at this
        push_cast
        linarith
    rw [Nat.factorial_succ]
    push_cast
    calc (n + 1 : ℝ) * n.factorial * arcA 0 (n + 1) = n.factorial * ((n + 1) * arcA 0 (n + 1)) := by ring
      _ = (2 * n + 1) * (n.factorial * arcA 0 n) := by rw [hrec]; ring
      _ = _ := by rw [ih]; ring

lemma deriv_rect (n : ℕ) {x : ℝ} (hx : x ≠ 0) : deriv (rectifiedMonomialFn n) x = n * rectifiedMonomialFn (n - 1) x := by
  rcases lt_or_gt_of_ne hx with h | h
  · have : rectifiedMonomialFn n =ᶠ[nhds x] fun _ => 0 := by
      filter_upwards [Iio_mem_nhds h] with y hy using rect_neg n hy
    rw [this.deriv_eq, rect_neg _ h]
    simp
  · have : rectifiedMonomialFn n =ᶠ[nhds x] fun x => x ^ n := by
      filter_upwards [Ioi_mem_nhds h] with y hy using rect_nonneg n (le_of_lt hy)
    rw [this.deriv_eq, rect_nonneg _ h.le]
    simp

lemma ideal_exact (n : ℕ) :
    (ideal n).Exact (fun v => 0 < v) (rectifiedMonomialFn n) (deriv (rectifiedMonomialFn n)) where
  diag v hv := by
    simp only [ideal, id]
    rw [Real.sqrt_mul_self hv.le, div_self hv.ne', Real.arccos_one, arcA_zero]
    have := Real.pi_ne_zero
    field_simp
  nngp {P q11 q12 q22} hP h1 h2 := (hP.rect h1 h2 n).symm
  dot {P q11 q12 q22} hP h1 h2 := by
    have e : ∫ x, deriv (rectifiedMonomialFn n) x.1 * deriv (rectifiedMonomialFn n) x.2 ∂P =
        ∫ x, (n : ℝ) ^ 2 * (rectifiedMonomialFn (n - 1) x.1 * rectifiedMonomialFn (n - 1) x.2) ∂P := by
      refine integral_congr_ae ?_
      filter_upwards [hP.ne_zero1 h1, hP.ne_zero2 h2] with x x1 x2
      rw [deriv_rect n x1, deriv_rect n x2]
      ring
    rw [e, integral_const_mul, hP.rect h1 h2]
    rfl

lemma sqrtTol_eq {x : ℝ} (hx : 0 ≤ x) : sqrtTol x = Real.sqrt x := by
  unfold sqrtTol
  rw [max_eq_left hx]

lemma agree (n : ℕ) {x prod : ℝ} (hp : 0 < prod) (h : |x| < Real.sqrt prod) :
    (rectifiedMonomialDual n).nngp x prod = (ideal n).nngp x prod ∧
      (rectifiedMonomialDual n).dot x prod = (ideal n).dot x prod := by
  have hs := Real.sqrt_pos.2 hp
  constructor
  · simp only [rectifiedMonomialDual, ideal]
    rw [sqrtTol_eq hp.le, rectJ_eq n hs h]
  · simp only [rectifiedMonomialDual, ideal]
    rw [sqrtTol_eq hp.le]
    rcases n with - | n
    · simp
    · rw [if_neg (by omega), rectJ_deriv n hs h, Nat.add_sub_cancel]
      push_cast
      rw [pow_succ]
      field_simp

/-- Inputs `1` and `2` of these (co)variances are not perfectly correlated. -/
def Strict (q11 q12 q22 : ℝ) : Prop := |q12| < Real.sqrt (q11 * q22)

/-- `RectifiedMonomial(degree)` in every layout: all entries whose inputs are not perfectly correlated are the
expectations for `φ(x) = (x >= 0) * x ^ degree`, and so are the variances in the fully diagonal layout.  What is missing:
perfectly correlated inputs, where the code divides by `sin 0` (`variance_divisor_zero`). -/
theorem rectified_entries_exact_partial (degree : ℕ) (k : Kernel ℝ) (L : Logical ℝ) (hk : k.Stores L) (hc : L.Closed)
    (hv : L.Vars (fun v => 0 < v)) (hg : k.isGaussian = true) :
    ∃ k' L', rectifiedMonomialKernelFn degree k = .ok k' ∧ k'.Stores L' ∧ AfterElementwise k k' ∧
      (L'.n1, L'.n2, L'.S1, L'.S2) = (L.n1, L.n2, L.S1, L.S2) ∧
      (∀ i j p q, i < L.n1 → j < L.n2 → InRange p L.S1 → InRange q L.S2 →
        Strict (L.k11 [i, i] p p) (L.k12 [i, j] p q) (L.second [j, j] q q) → ∀ P,
        GaussPair P (L.k11 [i, i] p p) (L.k12 [i, j] p q) (L.second [j, j] q q) →
        L'.k12 [i, j] p q = ∫ x, rectifiedMonomialFn degree x.1 * rectifiedMonomialFn degree x.2 ∂P ∧
        OptRel (fun F' F => F' [i, j] p q = F [i, j] p q *
          ∫ x, deriv (rectifiedMonomialFn degree) x.1 * deriv (rectifiedMonomialFn degree) x.2 ∂P) L'.ntk L.ntk) ∧
      (∀ i j p q, i < L.n1 → j < L.n1 → InRange p L.S1 → InRange q L.S1 →
        (Strict (L.k11 [i, i] p p) (L.k11 [i, j] p q) (L.k11 [j, j] q q) ∧
          (k.diagonalBatch && k.diagonalSpatial) = false) ∨ (i = j ∧ p = q ∧ (k.diagonalBatch && k.diagonalSpatial) = true) →
        ∀ P, GaussPair P (L.k11 [i, i] p p) (L.k11 [i, j] p q) (L.k11 [j, j] q q) →
        L'.k11 [i, j] p q = ∫ x, rectifiedMonomialFn degree x.1 * rectifiedMonomialFn degree x.2 ∂P) := by
  obtain ⟨k0, h0, h1, h2, h3, h4, h5, -⟩ := (rectifiedMonomialDual degree).kernelFn_any hk hc
  obtain ⟨k', g1, g2, g3⟩ := elementwise_ok (f := (rectifiedMonomialDual degree).kernelFn) hg h0 h1 h2 h3 h4 h5
  refine ⟨k', _, ?_, g2, g3, rfl, ?_, ?_⟩
  · unfold rectifiedMonomialKernelFn
    rw [if_neg (by omega)]
    exact g1
  · intro i j p q hi hj hp hq hs P hP
    have v1 := hv.one i p hi hp
    have v2 := hv.second hc j q hj hq
    obtain ⟨a1, a2⟩ := agree degree (mul_pos v1 v2) hs
    refine ⟨a1.trans ((ideal_exact degree).nngp hP v1 v2), ?_⟩
    simp only [DualFn.logicalAny, DualFn.logical]
    cases e : L.ntk with
    | none => trivial
    | some F => exact congrArg (F [i, j] p q * ·) (a2.trans ((ideal_exact degree).dot hP v1 v2))
  · intro i j p q hi hj hp hq hs P hP
    have v1 := hv.one i p hi hp
    have v2 := hv.one j q hj hq
    simp only [DualFn.logicalAny]
    rcases hs with ⟨hs, hd⟩ | ⟨rfl, rfl, hd⟩
    · rw [hd]
      exact (agree degree (mul_pos v1 v2) hs).1.trans ((ideal_exact degree).nngp hP v1 v2)
    · rw [hd]
      exact ((ideal_exact degree).diag _ v1).trans ((ideal_exact degree).nngp hP v1 v2)

/-- `RectifiedMonomial(degree)` in the fully diagonal layout: if no input of the first batch is perfectly correlated with one
of the second, then the whole result is that of `φ(x) = (x >= 0) * x ^ degree`. -/
theorem rectified_kernel_exact_partial (degree : ℕ) (k : Kernel ℝ) (L : Logical ℝ) (hk : k.Stores L) (hc : L.Closed)
    (hv : L.Vars (fun v => 0 < v)) (hg : k.isGaussian = true) (hdb : k.diagonalBatch = true) (hds : k.diagonalSpatial = true)
    (hs : ∀ i j p, i < L.n1 → j < L.n2 → InRange p L.S1 → InRange p L.S2 →
      Strict (L.k11 [i, i] p p) (L.k12 [i, j] p p) (L.second [j, j] p p)) :
    ∃ k' L', rectifiedMonomialKernelFn degree k = .ok k' ∧ k'.Stores L' ∧ AfterElementwise k k' ∧
      DualOf (rectifiedMonomialFn degree) (deriv (rectifiedMonomialFn degree)) L L' := by
  obtain ⟨k0, h0, h1, h2, h3, h4, h5, h6⟩ := (rectifiedMonomialDual degree).kernelFn_any hk hc
  have hst : k0.Stores ((ideal degree).logical L) := by
    have d1 : k0.diagonalBatch = true := by
      rw [show k0.diagonalBatch = k.diagonalBatch from congrArg Kernel.Static.diagonalBatch h2, hdb]
    have d2 : k0.diagonalSpatial = true := by
      rw [show k0.diagonalSpatial = k.diagonalSpatial from congrArg Kernel.Static.diagonalSpatial h2, hds]
    rw [hdb, hds] at h1
    have b1 : ∀ {b : List ℕ} {n m : ℕ}, InRange b [n, m] → ∃ i j, b = [i, j] ∧ i < n ∧ j < m := by
      intro b n m hb
      cases hb with
      | cons h1 h2 => cases h2 with | cons h3 h4 => cases h4; exact ⟨_, _, rfl, h1, h3⟩
    have b2 : ∀ {b : List ℕ} {n : ℕ}, InRange b [n] → ∃ i, b = [i] ∧ i < n := by
      intro b n hb
      cases hb with
      | cons h1 h2 => cases h2; exact ⟨_, rfl, h1⟩
    have n0 := h1.nngp
    have c0 := h1.cov1
    have e0 := h1.cov2
    have t0 := h1.ntk
    rw [d2] at n0 c0 e0 t0
    rw [d1] at c0 e0
    refine ⟨?_, ?_, ?_, ?_⟩
    · rw [d2]
      refine ⟨n0.rank, n0.square, n0.shape, fun b p q hb hp hq hpq => ?_⟩
      rw [n0.get b p q hb hp hq hpq]
      obtain rfl := hpq rfl
      obtain ⟨i, j, rfl, hi, hj⟩ := b1 hb
      exact (agree degree (mul_pos (hv.one i p hi hp) (hv.second hc j p hj hq)) (hs i j p hi hj hp hq)).1
    · rw [d1, d2]
      refine ⟨c0.rank, c0.square, c0.shape, fun b p q hb hp hq hpq => ?_⟩
      rw [c0.get b p q hb hp hq hpq]
      obtain rfl := hpq rfl
      obtain ⟨i, rfl, hi⟩ := b2 hb
      exact (ideal_exact degree).diag _ (hv.one i p hi hp)
    · rw [d1, d2]
      simp only [DualFn.logicalAny, DualFn.logical] at e0 ⊢
      cases e1 : k0.cov2 <;> cases e2 : L.k22 <;> rw [e1, e2] at e0 <;> simp only [OptRel, Option.map_some, Option.map_none] at e0 ⊢
      refine ⟨e0.rank, e0.square, e0.shape, fun b p q hb hp hq hpq => ?_⟩
      rw [e0.get b p q hb hp hq hpq]
      obtain rfl := hpq rfl
      obtain ⟨i, rfl, hi⟩ := b2 hb
      exact (ideal_exact degree).diag _ (hv.two _ e2 i p hi hp)
    · rw [d2]
      simp only [DualFn.logicalAny, DualFn.logical] at t0 ⊢
      cases e1 : k0.ntk <;> cases e2 : L.ntk <;> rw [e1, e2] at t0 <;> simp only [OptRel, Option.map_some, Option.map_none] at t0 ⊢
      rcases t0 with t0 | t0
      · exact absurd t0.1 (h6 _ e1)
      · refine .inr ⟨t0.rank, t0.square, t0.shape, fun b p q hb hp hq hpq => ?_⟩
        rw [t0.get b p q hb hp hq hpq]
        obtain rfl := hpq rfl
        obtain ⟨i, j, rfl, hi, hj⟩ := b1 hb
        exact congrArg _ (agree degree (mul_pos (hv.one i p hi hp) (hv.second hc j p hj hq)) (hs i j p hi hj hp hq)).2
  obtain ⟨k', g1, g2, g3⟩ := elementwise_ok (f := (rectifiedMonomialDual degree).kernelFn) hg h0 hst h2 h3 h4 h5
  refine ⟨k', _, ?_, g2, g3, (ideal_exact degree).dualOf hc hv⟩
  unfold rectifiedMonomialKernelFn
  rw [if_neg (by omega)]
  exact g1

/-- At a variance, i.e. at perfectly correlated inputs, the divisor `sin θ` of the code is zero: in a layout that is not
fully diagonal, the variances of the result are `0 / 0`-like values of the code (`NaN`). -/
theorem variance_divisor_zero (v : ℝ) (hv : 0 < v) : Real.sin (Real.arccos (v / sqrtTol (v * v))) = 0 := by
  rw [sqrtTol_eq (by positivity), Real.sqrt_mul_self hv.le, div_self hv.ne', Real.arccos_one, Real.sin_zero]

/-- Negative degrees are rejected. -/
theorem rectified_degree_rejected (degree : ℤ) (k : Kernel ℝ) (h : degree < 0) :
    rectifiedMonomialKernelFn degree k = .error .notImplemented := by
  unfold rectifiedMonomialKernelFn
  rw [if_pos h]

/-! ### Concrete cases -/

example (db ds rev : Bool) : ∃ k' L', monomialKernelFn 5 { C42.exL.encode db ds rev with isGaussian := true } = .ok k' ∧
    k'.Stores L' ∧ DualOf (fun x => x ^ 5) (deriv fun x => x ^ 5) C42.exL L' := by
  obtain ⟨k', L', h1, h2, -, h3⟩ := monomial_kernel_exact 5 (by norm_num) _ C42.exL (C42.exL_stores db ds rev) C42.exL_closed rfl
  exact ⟨k', L', h1, h2, h3⟩

lemma exL_strict (i j : ℕ) (p q : List ℕ) :
    Strict (C42.exL.k11 [i, i] p p) (C42.exL.k12 [i, j] p q) (C42.exL.second [j, j] q q) := by
  unfold Strict
  have h1 : (1 : ℝ) < Real.sqrt 2 := by
    rw [Real.lt_sqrt] <;> norm_num
  have h2 : (1 : ℝ) ≤ 1 + i + j + p.getD 0 0 + q.getD 0 0 := by
    have := Nat.cast_nonneg (α := ℝ) i
    have := Nat.cast_nonneg (α := ℝ) j
    have := Nat.cast_nonneg (α := ℝ) (p.getD 0 0)
    have := Nat.cast_nonneg (α := ℝ) (q.getD 0 0)
    linarith
  have h3 : |C42.exL.k12 [i, j] p q| ≤ 1 := by
    simp only [C42.exL, List.getD_cons_zero, List.getD_cons_succ]
    rw [abs_of_nonneg (by positivity)]
    exact (div_le_one (by linarith)).2 h2
  have h4 : C42.exL.k11 [i, i] p p * C42.exL.second [j, j] q q = 2 := by simp [C42.exL, Logical.second]
  rw [h4]
  linarith

example (rev : Bool) : ∃ k' L', rectifiedMonomialKernelFn 3 { C42.exL.encode true true rev with isGaussian := true } = .ok k' ∧
    k'.Stores L' ∧ DualOf (rectifiedMonomialFn 3) (deriv (rectifiedMonomialFn 3)) C42.exL L' := by
  obtain ⟨k', L', h1, h2, -, h3⟩ := rectified_kernel_exact_partial 3 _ C42.exL (C42.exL_stores true true rev) C42.exL_closed
    C42.exL_vars rfl rfl rfl (fun i j p _ _ _ _ => exL_strict i j p p)
  exact ⟨k', L', h1, h2, h3⟩

example (rev : Bool) : ∃ k', rectifiedMonomialKernelFn 2 { C42.exL.encode false false rev with isGaussian := true } = .ok k' := by
  obtain ⟨k', L', h1, -⟩ := rectified_entries_exact_partial 2 _ C42.exL (C42.exL_stores false false rev) C42.exL_closed
    C42.exL_vars rfl
  exact ⟨k', h1⟩

end NT.C47
