import Verif.Lemmas.Elementwise
import Verif.Lemmas.GaussMoments
import Verif.Props.C44

/-!
# C48: the `Polynomial` layer computes the Gaussian expectations
-/

namespace NT.C48
open NT Arr Kernel Spec MeasureTheory Gauss

/-- The polynomial with the coefficients `coef`, lowest first. -/
noncomputable def poly (coef : List ℝ) (x : ℝ) : ℝ := ∑ m ∈ Finset.range coef.length, coef.getD m 0 * x ^ m

lemma poly_cons (a : ℝ) (l : List ℝ) (x : ℝ) : poly (a :: l) x = a + x * poly l x := by
  unfold poly
  rw [List.length_cons, Finset.sum_range_succ', Finset.mul_sum]
  simp only [List.getD_cons_succ, List.getD_cons_zero, pow_zero, mul_one]
  rw [add_comm]
  congr 1
  refine Finset.sum_congr rfl fun m _ => ?_
  ring

lemma polyval_reverse (l : List ℝ) (x : ℝ) : polyval l.reverse x = poly l x := by
  induction l with
  | nil => simp [polyval, poly]
  | cons a l ih =>
    rw [poly_cons, ← ih]
    unfold polyval
    rw [List.reverse_cons, List.foldl_append]
    simp
    ring

/-- `E[p^{(l)}]` for the polynomial with coefficients `c`. -/
noncomputable def dsum (c : ℕ → ℝ) (d : ℕ) (q : ℝ) (l : ℕ) : ℝ := ∑ m ∈ Finset.range d, c m * dmom q l m

lemma dsum_shift (c : ℕ → ℝ) (d : ℕ) (q : ℝ) (l : ℕ) :
    dsum c (d + 1) q (l + 1) = dsum (fun m => (m + 1) * c (m + 1)) d q l := by
  unfold dsum
  rw [Finset.sum_range_succ', dmom_lt q (show 0 < l + 1 by omega), mul_zero, add_zero]
  refine Finset.sum_congr rfl fun m _ => ?_
  rw [dmom_deriv, Nat.add_sub_cancel]
  push_cast
  ring

lemma poly_pair {P : Measure (ℝ × ℝ)} {q11 q12 q22 : ℝ} (hP : GaussPair P q11 q12 q22) (c : ℕ → ℝ) (d : ℕ) :
    ∫ x, (∑ m ∈ Finset.range d, c m * x.1 ^ m) * (∑ m ∈ Finset.range d, c m * x.2 ^ m) ∂P =
      ∑ l ∈ Finset.range d, q12 ^ l / l.factorial * (dsum c d q11 l * dsum c d q22 l) := by
  have hg := hP.gaussian
  have e : (fun x : ℝ × ℝ => (∑ m ∈ Finset.range d, c m * x.1 ^ m) * (∑ m ∈ Finset.range d, c m * x.2 ^ m)) =
      fun x => ∑ m ∈ Finset.range d, ∑ n ∈ Finset.range d, c m * c n * (x.1 ^ m * x.2 ^ n) := by
    funext x
    rw [Finset.sum_mul_sum]
    refine Finset.sum_congr rfl fun m _ => Finset.sum_congr rfl fun n _ => ?_
    ring
  rw [e, integral_finsetSum _ fun m _ => integrable_finsetSum _ fun n _ => (integrable_mono m n).const_mul _]
  have e2 : ∀ m ∈ Finset.range d, ∫ x, ∑ n ∈ Finset.range d, c m * c n * (x.1 ^ m * x.2 ^ n) ∂P =
      ∑ n ∈ Finset.range d, ∑ l ∈ Finset.range d, c m * c n * (q12 ^ l / l.factorial * (dmom q11 l m * dmom q22 l n)) := by
    intro m hm
    rw [integral_finsetSum _ fun n _ => (integrable_mono m n).const_mul _]
    refine Finset.sum_congr rfl fun n _ => ?_
    rw [integral_const_mul, show ∫ x, x.1 ^ m * x.2 ^ n ∂P = _ from hP.mehler d m n (Finset.mem_range.1 hm), Finset.mul_sum]
  rw [Finset.sum_congr rfl e2]
  have e3 : ∀ l ∈ Finset.range d, q12 ^ l / l.factorial * (dsum c d q11 l * dsum c d q22 l) =
      ∑ m ∈ Finset.range d, ∑ n ∈ Finset.range d, c m * c n * (q12 ^ l / l.factorial * (dmom q11 l m * dmom q22 l n)) := by
    intro l _
    unfold dsum
    rw [Finset.sum_mul_sum, Finset.mul_sum]
    refine Finset.sum_congr rfl fun m _ => ?_
    rw [Finset.mul_sum]
    refine Finset.sum_congr rfl fun n _ => ?_
    ring
  rw [Finset.sum_congr rfl e3, Finset.sum_comm]
  rw [← Finset.sum_comm]
  conv_rhs => rw [Finset.sum_comm]
  exact Finset.sum_congr rfl fun m _ => Finset.sum_comm

/-! ### The code's `r` -/

lemma mom_even (q : ℝ) (i : ℕ) : mom q (2 * i) = (2 * i).factorial / (2 ^ i * i.factorial) * q ^ i := by
  induction i with
  | zero => simp [mom]
  | succ i ih =>
    rw [show 2 * (i + 1) = 2 * i + 2 by ring, mom, ih, show 2 * i + 2 = 2 * i + 1 + 1 by ring, Nat.factorial_succ,
      Nat.factorial_succ (2 * i), Nat.factorial_succ i]
    push_cast
    have : (i.factorial : ℝ) ≠ 0 := by positivity
    field_simp
    ring

lemma mom_odd (q : ℝ) (i : ℕ) : mom q (2 * i + 1) = 0 := by
  induction i with
  | zero => simp [mom]
  | succ i ih =>
    rw [show 2 * (i + 1) + 1 = 2 * i + 1 + 2 by ring, mom, ih, mul_zero]

lemma getD_range_map (f : ℕ → ℝ) {m n : ℕ} (h : m < n) : ((List.range n).map f).getD m 0 = f m := by
  simp [List.getD, h]

lemma lookup_range_map {β : Type} (f : ℕ → ℕ) (g : ℕ → β) (hf : Function.Injective f) (N i : ℕ) (hi : i < N) :
    ((List.range N).map fun i => (f i, g i)).lookup (f i) = some (g i) := by
  induction N with
  | zero => omega
  | succ N ih =>
    rw [List.range_succ, List.map_append, List.lookup_append]
    rcases Nat.lt_succ_iff_lt_or_eq.1 hi with h | rfl
    · rw [ih h]
      rfl
    · have : ((List.range i).map fun i => (f i, g i)).lookup (f i) = none := by
        rw [List.lookup_eq_none_iff]
        intro p hp
        simp only [List.mem_map, List.mem_range] at hp
        obtain ⟨j, hj, rfl⟩ := hp
        simp only [bne_iff_ne, ne_eq]
        intro h
        have := hf h
        omega
      rw [this]
      simp

lemma lookup_range_none {β : Type} (f : ℕ → ℕ) (g : ℕ → β) (N m : ℕ) (h : ∀ i < N, f i ≠ m) :
    ((List.range N).map fun i => (f i, g i)).lookup m = none := by
  rw [List.lookup_eq_none_iff]
  intro p hp
  simp only [List.mem_map, List.mem_range] at hp
  obtain ⟨j, hj, rfl⟩ := hp
  simp only [bne_iff_ne, ne_eq]
  exact fun e => h j hj (Eq.symm e)

/-- Entries of `coef_l`, as expectations of derivatives. -/
lemma polyCoef_eq (coef : List ℝ) (l m : ℕ) (hl : l < coef.length) (hm : m < coef.length) {n : ℝ} (hn : 0 ≤ n) :
    ((polyDict coef l).lookup m).getD 0 * Real.sqrt n ^ m =
      Real.sqrt n ^ l / Real.sqrt l.factorial * (coef.getD m 0 * dmom n l m) := by
  unfold polyDict
  by_cases h : ∃ i, m = 2 * i + l
  · obtain ⟨i, rfl⟩ := h
    rw [lookup_range_map (fun i => 2 * i + l) _ (fun a b hab => by simp only at hab; omega) _ i (by omega)]
    unfold dmom
    have d1 : (2 * i + l - l) = 2 * i := by omega
    have d2 : ((2 * i + l).factorial : ℝ) = (2 * i).factorial * (2 * i + l).descFactorial l := by
      have := Nat.factorial_mul_descFactorial (show l ≤ 2 * i + l by omega)
      rw [d1] at this
      exact_mod_cast this.symm
    have d3 : Real.sqrt n ^ (2 * i + l) = n ^ i * Real.sqrt n ^ l := by
      rw [pow_add, pow_mul, Real.sq_sqrt hn]
    rw [d1, mom_even, d2, d3]
    simp only [Option.getD_some]
    have h1 : (i.factorial : ℝ) ≠ 0 := by positivity
    have h2 : Real.sqrt (l.factorial : ℝ) ≠ 0 := (Real.sqrt_pos.2 (by positivity)).ne'
    field_simp
  · rw [lookup_range_none (fun i => 2 * i + l) _ _ _ (fun i _ e => h ⟨i, e.symm⟩)]
    have : dmom n l m = 0 := by
      rcases Nat.lt_or_ge m l with hlt | hge
      · exact dmom_lt n hlt
      · obtain ⟨i, hi⟩ : ∃ i, m - l = 2 * i + 1 := by
          refine ⟨(m - l) / 2, ?_⟩
          by_contra hcon
          exact h ⟨(m - l) / 2, by omega⟩
        unfold dmom
        rw [hi, mom_odd, mul_zero]
    rw [this]
    simp

lemma polyR_eq (coef : List ℝ) (l : ℕ) (hl : l < coef.length) {n : ℝ} (hn : 0 ≤ n) :
    polyR coef n l = Real.sqrt n ^ l / Real.sqrt l.factorial * dsum (fun m => coef.getD m 0) coef.length n l := by
  unfold polyR
  rw [polyval_reverse]
  unfold poly dsum
  rw [Finset.mul_sum]
  have hlen : (polyCoef coef l).length = coef.length := by simp [polyCoef]
  rw [hlen]
  refine Finset.sum_congr rfl fun m hm => ?_
  have hm := Finset.mem_range.1 hm
  rw [← polyCoef_eq coef l m hl hm hn]
  congr 1
  unfold polyCoef
  rw [getD_range_map _ hm]

lemma foldl_range_sum (f : ℕ → ℝ) (n : ℕ) : (List.range n).foldl (fun acc l => acc + f l) 0 = ∑ l ∈ Finset.range n, f l := by
  induction n with
  | zero => simp
  | succ n ih => rw [List.range_succ, List.foldl_append, ih, Finset.sum_range_succ]; rfl

lemma foldl_range1_sum (f : ℕ → ℝ) (n : ℕ) :
    (List.range' 1 n).foldl (fun acc l => acc + f l) 0 = ∑ l ∈ Finset.range n, f (l + 1) := by
  induction n with
  | zero => simp
  | succ n ih =>
    rw [List.range'_concat, List.foldl_append, ih, Finset.sum_range_succ, add_comm 1]
    simp

lemma sqrtTol_eq {x : ℝ} (hx : 0 ≤ x) : sqrtTol x = Real.sqrt x := by
  unfold sqrtTol
  rw [max_eq_left hx]

lemma rprod (coef : List ℝ) (l : ℕ) (hl : l < coef.length) {x y : ℝ} (hx : 0 < x) (hy : 0 < y) (q : ℝ) :
    polyR coef x l * polyR coef y l * (q / sqrtTol (x * y)) ^ l =
      q ^ l / l.factorial * (dsum (fun m => coef.getD m 0) coef.length x l * dsum (fun m => coef.getD m 0) coef.length y l) := by
  rw [polyR_eq coef l hl hx.le, polyR_eq coef l hl hy.le, sqrtTol_eq (mul_pos hx hy).le, Real.sqrt_mul hx.le, div_pow, mul_pow]
  have s1 := (Real.sqrt_pos.2 hx).ne'
  have s2 := (Real.sqrt_pos.2 hy).ne'
  have s3 : Real.sqrt (l.factorial : ℝ) ≠ 0 := (Real.sqrt_pos.2 (by positivity)).ne'
  have s4 : (l.factorial : ℝ) = Real.sqrt l.factorial ^ 2 := (Real.sq_sqrt (by positivity)).symm
  rw [s4]
  simp only [Real.sqrt_sq (Real.sqrt_nonneg _)]
  field_simp

lemma poly_deriv (coef : List ℝ) :
    deriv (poly coef) = fun x => ∑ m ∈ Finset.range (coef.length - 1), ((m : ℝ) + 1) * coef.getD (m + 1) 0 * x ^ m := by
  funext x
  unfold poly
  rw [deriv_fun_sum fun m _ => by fun_prop]
  simp only [deriv_const_mul_field', deriv_pow_field]
  rcases h : coef.length with - | d
  · simp
  · rw [Finset.sum_range_succ']
    simp only [Nat.add_sub_cancel, Nat.cast_zero, zero_mul, mul_zero, add_zero]
    refine Finset.sum_congr rfl fun m _ => ?_
    push_cast
    ring

lemma polynomial_exact (coef : List ℝ) :
    (polynomialDual coef).Exact (fun v => 0 < v) (poly coef) (deriv (poly coef)) where
  diag v hv := by
    simp only [polynomialDual, id]
    rw [foldl_range_sum, foldl_range_sum]
    refine Finset.sum_congr rfl fun l hl => ?_
    have hl := Finset.mem_range.1 hl
    rw [sqrtTol_eq (by positivity), Real.sqrt_mul_self hv.le, div_self hv.ne', one_pow, mul_one,
      getD_range_map _ hl]
  nngp {P q11 q12 q22} hP h1 h2 := by
    simp only [polynomialDual, id]
    rw [foldl_range_sum]
    unfold poly
    rw [poly_pair hP]
    refine Finset.sum_congr rfl fun l hl => ?_
    have hl := Finset.mem_range.1 hl
    rw [← rprod coef l hl h1 h2, getD_range_map _ hl]
  dot {P q11 q12 q22} hP h1 h2 := by
    simp only [polynomialDual, id]
    rw [foldl_range1_sum, poly_deriv, poly_pair hP, Finset.sum_div]
    refine Finset.sum_congr rfl fun l hl => ?_
    have hl := Finset.mem_range.1 hl
    rw [← dsum_shift (fun m => coef.getD m 0), ← dsum_shift (fun m => coef.getD m 0),
      show coef.length - 1 + 1 = coef.length by omega, getD_range_map _ (by omega)]
    simp only [Nat.add_sub_cancel]
    have hp := rprod coef (l + 1) (by omega) h1 h2 1
    have hs := (Real.sqrt_pos.2 (mul_pos h1 h2)).ne'
    rw [sqrtTol_eq (mul_pos h1 h2).le] at hp ⊢
    rw [one_pow, Nat.factorial_succ, div_pow, one_pow] at hp
    push_cast at hp ⊢
    have h3 : ((l : ℝ) + 1) ≠ 0 := by positivity
    have h4 : (l.factorial : ℝ) ≠ 0 := by positivity
    rw [div_pow]
    calc ((l : ℝ) + 1) * (polyR coef q11 (l + 1) * polyR coef q22 (l + 1)) * (q12 ^ l / Real.sqrt (q11 * q22) ^ l) / Real.sqrt (q11 * q22)
        = ((l : ℝ) + 1) * q12 ^ l * (polyR coef q11 (l + 1) * polyR coef q22 (l + 1) * (1 / Real.sqrt (q11 * q22) ^ (l + 1))) := by
          rw [pow_succ]; field_simp
      _ = _ := by
          rw [hp]
          field_simp

/-- `Polynomial(coef)`, for positive variances: the result stores the expectations for the polynomial
`φ(x) = coef[0] + coef[1] x + … + coef[n] x ^ n` that the layer applies. -/
theorem kernel_exact (coef : List ℝ) (k : Kernel ℝ) (L : Logical ℝ) (hk : k.Stores L) (hc : L.Closed)
    (hv : L.Vars (fun v => 0 < v)) (hg : k.isGaussian = true) :
    ∃ k' L', polynomialKernelFn coef k = .ok k' ∧ k'.Stores L' ∧ AfterElementwise k k' ∧
      DualOf (fun x => ∑ m ∈ Finset.range coef.length, coef.getD m 0 * x ^ m)
        (deriv fun x => ∑ m ∈ Finset.range coef.length, coef.getD m 0 * x ^ m) L L' := by
  obtain ⟨k0, h0, h1, h2, h3, h4, h5, -⟩ := (polynomialDual coef).kernelFn_ok hk hc hv (polynomial_exact coef).diag
  obtain ⟨k', g1, g2, g3⟩ := elementwise_ok (f := (polynomialDual coef).kernelFn) hg h0 h1 h2 h3 h4 h5
  exact ⟨k', _, g1, g2, g3, (polynomial_exact coef).dualOf hc hv⟩

/-- The function applied by the layer is this polynomial. -/
theorem apply_eq (coef : List ℝ) (x : ℝ) :
    polynomialFn coef x = ∑ m ∈ Finset.range coef.length, coef.getD m 0 * x ^ m := polyval_reverse coef x

/-- At a zero variance the code computes `0 / 0`. -/
theorem zero_variance_divisor (v : ℝ) : sqrtTol (0 * v) = 0 := by simp [sqrtTol]

example (db ds rev : Bool) : ∃ k' L', polynomialKernelFn [1, -2, 0, 1 / 2] { C42.exL.encode db ds rev with isGaussian := true } = .ok k' ∧
    k'.Stores L' ∧ DualOf (poly [1, -2, 0, 1 / 2]) (deriv (poly [1, -2, 0, 1 / 2])) C42.exL L' := by
  obtain ⟨k', L', h1, h2, -, h3⟩ := kernel_exact [1, -2, 0, 1 / 2] _ C42.exL (C42.exL_stores db ds rev) C42.exL_closed
    C42.exL_vars rfl
  exact ⟨k', L', h1, h2, h3⟩

end NT.C48
