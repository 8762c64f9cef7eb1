import Verif.Lemmas.Elementwise
import Verif.Lemmas.GaussMoments
import Verif.Props.C42

/-!
# C79: `ElementwiseNumerical` is exact when its quadrature rule is
-/

namespace NT.C79
open NT Arr Kernel Spec MeasureTheory Gauss ProbabilityTheory

/-- The rule (points and weights) integrates the powers up to `N` against `exp(-t²)` exactly, as the Gauss-Hermite rule with `deg`
points does for `N = 2 deg - 1`. -/
def RuleExact (rule : List (ℝ × ℝ)) (N : ℕ) : Prop :=
  ∀ m ≤ N, (rule.map fun x => x.2 * x.1 ^ m).sum = ∫ t : ℝ, t ^ m * Real.exp (-t ^ 2)

lemma gh (m : ℕ) : ∫ t : ℝ, t ^ m * Real.exp (-t ^ 2) = Real.sqrt Real.pi * ((Real.sqrt 2)⁻¹ ^ m * ∫ z, z ^ m ∂std) := by
  have h2 : 0 < Real.sqrt 2 := by positivity
  have hs : ∫ z, z ^ m ∂std = (Real.sqrt (2 * Real.pi))⁻¹ * ∫ z : ℝ, z ^ m * Real.exp (-z ^ 2 / 2) := by
    unfold std
    rw [integral_gaussianReal_eq_integral_smul one_ne_zero, ← integral_const_mul]
    congr 1
    funext z
    simp only [gaussianPDFReal, smul_eq_mul, NNReal.coe_one, sub_zero, mul_one]
    ring
  have hc := Measure.integral_comp_mul_left (fun z : ℝ => z ^ m * Real.exp (-z ^ 2 / 2)) (Real.sqrt 2)
  have e : (fun x : ℝ => (Real.sqrt 2 * x) ^ m * Real.exp (-(Real.sqrt 2 * x) ^ 2 / 2)) =
      fun x => Real.sqrt 2 ^ m * (x ^ m * Real.exp (-x ^ 2)) := by
    funext x
    have : -(Real.sqrt 2 * x) ^ 2 / 2 = -x ^ 2 := by
      rw [mul_pow, Real.sq_sqrt (by norm_num)]; ring
    rw [this, mul_pow]
    ring
  rw [e, integral_const_mul, abs_of_pos (inv_pos.2 h2), smul_eq_mul] at hc
  rw [hs, Real.sqrt_mul (by norm_num)]
  have h3 : 0 < Real.sqrt Real.pi := Real.sqrt_pos.2 Real.pi_pos
  generalize (∫ z : ℝ, z ^ m * Real.exp (-z ^ 2 / 2)) = I at hc ⊢
  generalize (∫ t : ℝ, t ^ m * Real.exp (-t ^ 2)) = J at hc ⊢
  have h4 : Real.sqrt 2 ^ m ≠ 0 := by positivity
  rw [inv_pow]
  field_simp at hc ⊢
  linarith

/-- The two-dimensional rule. -/
def quad (rule : List (ℝ × ℝ)) (g : ℝ × ℝ → ℝ) : ℝ :=
  (rule.map fun x => (rule.map fun y => x.2 * y.2 * g (x.1, y.1)).sum).sum

/-- The rule is exact for `g`. -/
structure Good (rule : List (ℝ × ℝ)) (g : ℝ × ℝ → ℝ) : Prop where
  int : Integrable (fun z => g ((Real.sqrt 2)⁻¹ * z.1, (Real.sqrt 2)⁻¹ * z.2)) std2
  eq : quad rule g = Real.pi * ∫ z, g ((Real.sqrt 2)⁻¹ * z.1, (Real.sqrt 2)⁻¹ * z.2) ∂std2

lemma list_sum_add {ι : Type} (l : List ι) (f g : ι → ℝ) : (l.map fun x => f x + g x).sum = (l.map f).sum + (l.map g).sum := by
  induction l with
  | nil => simp
  | cons a l ih => simp only [List.map_cons, List.sum_cons, ih]; ring

lemma list_sum_mul {ι : Type} (l : List ι) (c : ℝ) (f : ι → ℝ) : (l.map fun x => c * f x).sum = c * (l.map f).sum := by
  induction l with
  | nil => simp
  | cons a l ih => simp only [List.map_cons, List.sum_cons, ih]; ring

variable {rule : List (ℝ × ℝ)}

lemma Good.zero : Good rule (fun _ => 0) := ⟨by simp, by simp [quad]⟩

lemma Good.add {g h : ℝ × ℝ → ℝ} (hg : Good rule g) (hh : Good rule h) : Good rule (fun z => g z + h z) := by
  refine ⟨hg.int.add hh.int, ?_⟩
  rw [integral_add hg.int hh.int, mul_add, ← hg.eq, ← hh.eq]
  unfold quad
  rw [← list_sum_add]
  congr 1
  refine List.map_congr_left fun x _ => ?_
  rw [← list_sum_add]
  congr 1
  refine List.map_congr_left fun y _ => ?_
  ring

lemma Good.const_mul {g : ℝ × ℝ → ℝ} (hg : Good rule g) (c : ℝ) : Good rule (fun z => c * g z) := by
  refine ⟨hg.int.const_mul c, ?_⟩
  rw [integral_const_mul, show Real.pi * (c * ∫ z, g ((Real.sqrt 2)⁻¹ * z.1, (Real.sqrt 2)⁻¹ * z.2) ∂std2) =
    c * (Real.pi * ∫ z, g ((Real.sqrt 2)⁻¹ * z.1, (Real.sqrt 2)⁻¹ * z.2) ∂std2) by ring, ← hg.eq]
  unfold quad
  rw [← list_sum_mul]
  congr 1
  refine List.map_congr_left fun x _ => ?_
  rw [← list_sum_mul]
  congr 1
  refine List.map_congr_left fun y _ => ?_
  ring

lemma Good.sum {ι : Type} (s : Finset ι) {g : ι → ℝ × ℝ → ℝ} (hg : ∀ i ∈ s, Good rule (g i)) :
    Good rule (fun z => ∑ i ∈ s, g i z) := by
  classical
  induction s using Finset.induction_on with
  | empty => simpa using Good.zero
  | insert a s ha ih =>
    simp only [Finset.sum_insert ha]
    exact (hg a (by simp)).add (ih fun i hi => hg i (by simp [hi]))

lemma Good.mono {N : ℕ} (hr : RuleExact rule N) {s t : ℕ} (hs : s ≤ N) (ht : t ≤ N) :
    Good rule (fun z => z.1 ^ s * z.2 ^ t) := by
  have hg := std2_pair.gaussian
  have e : (fun z : ℝ × ℝ => ((Real.sqrt 2)⁻¹ * z.1) ^ s * ((Real.sqrt 2)⁻¹ * z.2) ^ t) =
      fun z => ((Real.sqrt 2)⁻¹ ^ s * (Real.sqrt 2)⁻¹ ^ t) * (z.1 ^ s * z.2 ^ t) := by
    funext z
    ring
  refine ⟨?_, ?_⟩
  · simp only
    rw [e]
    exact (integrable_mono s t).const_mul _
  · simp only
    rw [e, integral_const_mul]
    have : ∫ z : ℝ × ℝ, z.1 ^ s * z.2 ^ t ∂std2 = (∫ z, z ^ s ∂std) * ∫ z, z ^ t ∂std :=
      integral_prod_mul (fun x : ℝ => x ^ s) (fun x : ℝ => x ^ t)
    rw [this]
    have h1 := (hr s hs).trans (gh s)
    have h2 := (hr t ht).trans (gh t)
    have h3 : quad rule (fun z => z.1 ^ s * z.2 ^ t) = (rule.map fun x => x.2 * x.1 ^ s).sum * (rule.map fun x => x.2 * x.1 ^ t).sum := by
      unfold quad
      rw [mul_comm, ← list_sum_mul]
      congr 1
      refine List.map_congr_left fun x _ => ?_
      rw [mul_comm, ← list_sum_mul]
      congr 1
      refine List.map_congr_left fun y _ => ?_
      ring
    rw [h3, h1, h2]
    have hpi : Real.sqrt Real.pi * Real.sqrt Real.pi = Real.pi := Real.mul_self_sqrt Real.pi_pos.le
    generalize Real.sqrt Real.pi = w at hpi ⊢
    rw [← hpi]
    ring

/-- Products of a polynomial in `γ x` and one in `α x + β y`. -/
lemma good_poly {N d : ℕ} (hr : RuleExact rule N) (hd : 2 * d ≤ N) (c : ℕ → ℝ) (γ α β : ℝ) :
    Good rule (fun z => (∑ m ∈ Finset.range (d + 1), c m * (γ * z.1) ^ m) *
      (∑ m ∈ Finset.range (d + 1), c m * (α * z.1 + β * z.2) ^ m)) := by
  have e : (fun z : ℝ × ℝ => (∑ m ∈ Finset.range (d + 1), c m * (γ * z.1) ^ m) *
      (∑ m ∈ Finset.range (d + 1), c m * (α * z.1 + β * z.2) ^ m)) =
      fun z => ∑ m ∈ Finset.range (d + 1), ∑ n ∈ Finset.range (d + 1), ∑ k ∈ Finset.range (n + 1),
        (c m * c n * γ ^ m * α ^ k * β ^ (n - k) * (n.choose k)) * (z.1 ^ (m + k) * z.2 ^ (n - k)) := by
    funext z
    rw [Finset.sum_mul_sum]
    refine Finset.sum_congr rfl fun m _ => Finset.sum_congr rfl fun n _ => ?_
    rw [add_pow, Finset.mul_sum, Finset.mul_sum]
    refine Finset.sum_congr rfl fun k _ => ?_
    rw [mul_pow, mul_pow, mul_pow, pow_add]
    ring
  rw [e]
  refine Good.sum _ fun m hm => Good.sum _ fun n hn => Good.sum _ fun k hk => Good.const_mul (Good.mono hr ?_ ?_) _
  · simp only [Finset.mem_range] at hm hn hk
    omega
  · simp only [Finset.mem_range] at hm hn hk
    omega

lemma sqrtTol_eq {x : ℝ} (hx : 0 ≤ x) : sqrtTol x = Real.sqrt x := by
  unfold sqrtTol
  rw [max_eq_left hx]

/-- The code's `integrate`, for a polynomial of degree `d` and a rule that is exact to degree `2 d`. -/
lemma integrate_eq {P : Measure (ℝ × ℝ)} {q11 q12 q22 : ℝ} (hP : GaussPair P q11 q12 q22) (h1 : 2e-30 ≤ q11) {N d : ℕ}
    (hr : RuleExact rule N) (hd : 2 * d ≤ N) (c : ℕ → ℝ) (f : ℝ → ℝ) (hf : ∀ x, f x = ∑ m ∈ Finset.range (d + 1), c m * x ^ m) :
    numericalDual.integrate rule f q12 (q11, q22) = ∫ x, f x.1 * f x.2 ∂P := by
  have hpos : 0 < q11 := lt_of_lt_of_le (by norm_num) h1
  have hs := Real.sqrt_pos.2 hpos
  have hr2 : (0 : ℝ) < Real.sqrt 2 := by positivity
  have hge : 0 ≤ q22 - q12 ^ 2 / q11 := by
    have := hP.cs
    rw [sub_nonneg, div_le_iff₀ hpos]
    nlinarith
  set a := q12 / Real.sqrt q11 with ha
  set b := Real.sqrt (q22 - q12 ^ 2 / q11) with hb
  have hsq : Real.sqrt q11 ^ 2 = q11 := Real.sq_sqrt hpos.le
  have ha2 : a ^ 2 = q12 ^ 2 / q11 := by rw [ha, div_pow, hsq]
  have hb2 : b ^ 2 = q22 - q12 ^ 2 / q11 := Real.sq_sqrt hge
  have hPe : P = std2.map fun z => (Real.sqrt q11 * z.1 + 0 * z.2, a * z.1 + b * z.2) := by
    refine hP.unique ?_
    have := std2_pair.map_pair (Real.sqrt q11) 0 a b
    have e1 : Real.sqrt q11 ^ 2 * 1 + 2 * Real.sqrt q11 * 0 * 0 + 0 ^ 2 * 1 = q11 := by rw [hsq]; ring
    have e2 : Real.sqrt q11 * a * 1 + (Real.sqrt q11 * b + 0 * a) * 0 + 0 * b * 1 = q12 := by
      rw [ha]; field_simp; ring
    have e3 : a ^ 2 * 1 + 2 * a * b * 0 + b ^ 2 * 1 = q22 := by rw [ha2, hb2]; ring
    rw [e1, e2, e3] at this
    exact this
  have hfm : Measurable f := by
    rw [show f = fun x => ∑ m ∈ Finset.range (d + 1), c m * x ^ m from funext hf]
    fun_prop
  have hm : Measurable fun x : ℝ × ℝ => f x.1 * f x.2 := by fun_prop
  have hint : ∫ x, f x.1 * f x.2 ∂P = ∫ z, f (Real.sqrt q11 * z.1) * f (a * z.1 + b * z.2) ∂std2 := by
    conv_lhs => rw [hPe]
    rw [integral_map (by fun_prop) hm.aestronglyMeasurable]
    simp
  have hgood := (good_poly hr hd c (Real.sqrt (2 * q11)) (Real.sqrt 2 * a) (Real.sqrt 2 * b)).eq
  simp only [← hf] at hgood
  have hquad : numericalDual.integrate rule f q12 (q11, q22) =
      quad rule (fun z => f (Real.sqrt (2 * q11) * z.1) * f (Real.sqrt 2 * a * z.1 + Real.sqrt 2 * b * z.2)) / Real.pi := by
    unfold numericalDual.integrate quad
    congr 2
    have t1 : sqrtTol (2 * q11) = Real.sqrt (2 * q11) := sqrtTol_eq (by positivity)
    have t2 : q12 / sqrtTol (q11 / 2) 1e-30 = Real.sqrt 2 * a := by
      unfold sqrtTol
      rw [max_eq_left (by linarith), ha, Real.sqrt_div hpos.le, div_div_eq_mul_div]
      ring
    have t3 : sqrtTol (2 * (q22 - q12 ^ 2 / q11)) = Real.sqrt 2 * b := by
      rw [sqrtTol_eq (by positivity), hb, Real.sqrt_mul (by norm_num)]
    simp only [t1, t2, t3]
  rw [hquad, hgood, hint, mul_div_cancel_left₀ _ Real.pi_ne_zero]
  congr 1
  funext z
  rw [Real.sqrt_mul (by norm_num)]
  have e1 : Real.sqrt 2 * Real.sqrt q11 * ((Real.sqrt 2)⁻¹ * z.1) = Real.sqrt q11 * z.1 := by field_simp
  have e2 : Real.sqrt 2 * a * ((Real.sqrt 2)⁻¹ * z.1) + Real.sqrt 2 * b * ((Real.sqrt 2)⁻¹ * z.2) = a * z.1 + b * z.2 := by
    field_simp
  rw [e1, e2]

lemma numerical_diag {N : ℕ} (hr : RuleExact rule N) (fn df : ℝ → ℝ) (v : ℝ) (hv : 2e-30 ≤ v) :
    (numericalDual fn df rule).diag v = (numericalDual fn df rule).nngp v (v, v) := by
  have hpos : 0 < v := lt_of_lt_of_le (by norm_num) hv
  simp only [numericalDual, numericalDual.integrate]
  have t2 : v / sqrtTol (v / 2) 1e-30 = sqrtTol (2 * v) := by
    rw [sqrtTol_eq (by positivity)]
    unfold sqrtTol
    rw [max_eq_left (by linarith), div_eq_iff (Real.sqrt_pos.2 (by positivity)).ne', ← Real.sqrt_mul (by positivity),
      show 2 * v * (v / 2) = v * v by ring, Real.sqrt_mul_self hpos.le]
  have t3 : sqrtTol (2 * (v - v ^ 2 / v)) = 0 := by
    have : 2 * (v - v ^ 2 / v) = 0 := by field_simp; ring
    rw [this]
    simp [sqrtTol]
  simp only [t2, t3, zero_mul, add_zero]
  have hw : (rule.map fun x => x.2).sum = Real.sqrt Real.pi := by
    have := (hr 0 (by omega)).trans (gh 0)
    simpa [std] using this
  have e : (rule.map fun x => (rule.map fun y => x.2 * y.2 * (fn (sqrtTol (2 * v) * x.1) * fn (sqrtTol (2 * v) * x.1))).sum).sum =
      Real.sqrt Real.pi * (rule.map fun x => x.2 * fn (sqrtTol (2 * v) * x.1) ^ 2).sum := by
    rw [← hw, ← list_sum_mul]
    congr 1
    refine List.map_congr_left fun x _ => ?_
    rw [mul_comm (rule.map fun x => x.2).sum, ← list_sum_mul]
    congr 1
    refine List.map_congr_left fun y _ => ?_
    ring
  rw [e]
  have hpi : Real.sqrt Real.pi * Real.sqrt Real.pi = Real.pi := Real.mul_self_sqrt Real.pi_pos.le
  have h3 : 0 < Real.sqrt Real.pi := Real.sqrt_pos.2 Real.pi_pos
  rw [div_eq_div_iff h3.ne' Real.pi_ne_zero, ← hpi]
  simp only [Real.sqrt_mul_self (Real.sqrt_nonneg _)]
  ring

/-- `ElementwiseNumerical` for a polynomial of degree at most `d` and a quadrature rule that is exact to degree `2 d`, for variances
not below the tolerance of the code: the result stores the expectations. -/
theorem kernel_exact (c : ℕ → ℝ) (d : ℕ) (rule : List (ℝ × ℝ)) (hr : RuleExact rule (2 * d)) (k : Kernel ℝ) (L : Logical ℝ)
    (hk : k.Stores L) (hc : L.Closed) (hv : L.Vars (fun v => 2e-30 ≤ v)) (hg : k.isGaussian = true) (fn : ℝ → ℝ)
    (hfn : ∀ x, fn x = ∑ m ∈ Finset.range (d + 1), c m * x ^ m) :
    ∃ k' L', numericalKernelFn fn (deriv fn) rule k = .ok k' ∧ k'.Stores L' ∧ AfterElementwise k k' ∧
      DualOf fn (deriv fn) L L' := by
  have hex : (numericalDual fn (deriv fn) rule).Exact (fun v => 2e-30 ≤ v) fn (deriv fn) := by
    refine ⟨fun v hv => numerical_diag hr fn _ v hv, fun {P q11 q12 q22} hP h1 _ => integrate_eq hP h1 hr le_rfl c fn hfn,
      fun {P q11 q12 q22} hP h1 _ => ?_⟩
    refine integrate_eq hP h1 hr (d := d) le_rfl (fun m => if m < d then (m + 1) * c (m + 1) else 0) _ fun x => ?_
    rw [show fn = fun x => ∑ m ∈ Finset.range (d + 1), c m * x ^ m from funext hfn, deriv_fun_sum fun m _ => by fun_prop]
    simp only [deriv_const_mul_field', deriv_pow_field]
    rw [Finset.sum_range_succ', Finset.sum_range_succ]
    simp only [Nat.add_sub_cancel, Nat.cast_zero, zero_mul, mul_zero, add_zero, lt_irrefl, if_false]
    refine Finset.sum_congr rfl fun m hm => ?_
    rw [if_pos (Finset.mem_range.1 hm)]
    push_cast
    ring
  obtain ⟨k0, h0, h1, h2, h3, h4, h5, -⟩ := (numericalDual fn (deriv fn) rule).kernelFn_ok hk hc hv hex.diag
  obtain ⟨k', g1, g2, g3⟩ := elementwise_ok (f := (numericalDual fn (deriv fn) rule).kernelFn) hg h0 h1 h2 h3 h4 h5
  exact ⟨k', _, g1, g2, g3, hex.dualOf hc hv⟩

/-! ### A concrete case: the rule with two points is exact to degree 3 -/

lemma rule2 : RuleExact [(Real.sqrt 2 / 2, Real.sqrt Real.pi / 2), (-(Real.sqrt 2 / 2), Real.sqrt Real.pi / 2)] 2 := by
  intro m hm
  have h2 : Real.sqrt 2 ^ 2 = 2 := Real.sq_sqrt (by norm_num)
  have hmom : ∀ k, ∫ z, z ^ k ∂std = mom 1 k := by
    intro k
    have h := moment_left std2_pair k
    rw [← h]
    have : ∫ z : ℝ × ℝ, z.1 ^ k * z.2 ^ 0 ∂std2 = (∫ z, z ^ k ∂std) * ∫ z, z ^ 0 ∂std :=
      integral_prod_mul (fun x : ℝ => x ^ k) (fun x : ℝ => x ^ 0)
    unfold Gauss.moment
    rw [this]
    simp [std]
  rw [gh, hmom]
  interval_cases m
  · simp [mom]
  · simp [mom]
  · simp only [List.map_cons, List.map_nil, List.sum_cons, List.sum_nil, mom]
    rw [inv_pow, h2, neg_sq, div_pow, h2]
    push_cast
    ring

example (db ds rev : Bool) : ∃ k' L', numericalKernelFn (fun x => 1 - 2 * x) (deriv fun x => 1 - 2 * x)
    [(Real.sqrt 2 / 2, Real.sqrt Real.pi / 2), (-(Real.sqrt 2 / 2), Real.sqrt Real.pi / 2)]
    { C42.exL.encode db ds rev with isGaussian := true } = .ok k' ∧ k'.Stores L' ∧
    DualOf (fun x => 1 - 2 * x) (deriv fun x => 1 - 2 * x) C42.exL L' := by
  obtain ⟨k', L', h1, h2, -, h3⟩ := kernel_exact (fun m => if m = 0 then 1 else -2) 1 _ rule2 _ C42.exL (C42.exL_stores db ds rev)
    C42.exL_closed ⟨fun i p _ _ => by simp [C42.exL]; norm_num, fun F hF i p _ _ => by
      obtain rfl := Option.some.inj hF
      simp
      norm_num⟩ rfl (fun x => 1 - 2 * x) (fun x => by simp [Finset.sum_range_succ]; ring)
  exact ⟨k', L', h1, h2, h3⟩

end NT.C79
