import Verif.Props.C70
import Mathlib.Analysis.Calculus.Taylor
import Mathlib.Analysis.Calculus.Deriv.Shift
import Mathlib.Analysis.SpecialFunctions.ExpDeriv

/-!
# C71: `taylor_expand` is the Taylor polynomial of the stated degree

`taylor_expand(f, params, d)` equals the sum over `k ≤ d` of the `k`-th directional derivative over `k!`, is exact for polynomials of degree
at most `d`; degree 1 equals `linearize` and degree 0 is constant; a negative degree raises.
-/

namespace NT.C71
open NT NT.Taylor

variable {E F X : Type} [NormedAddCommGroup E] [NormedSpace ℝ E] [NormedAddCommGroup F] [NormedSpace ℝ F]

/-- The function along the line from `w` in the direction `v`. -/
def line (f : E → F) (w v : E) : ℝ → F := fun t => f (w + t • v)

lemma deriv_line (f : E → F) (w v : E) : deriv (line f w v) = line (fun p => (jvp f p v).2) w v := by
  funext t
  simp only [line, jvp, lineDeriv]
  have : (fun s : ℝ => f (w + t • v + s • v)) = fun s => line f w v (t + s) := by
    funext s
    rw [line, add_smul, add_assoc]
  rw [this, deriv_comp_const_add]
  simp

/-- The terms of the Taylor polynomial from the degree `c` on, with the weights of the recursion. -/
lemma taylorizeR_eq : ∀ (n fuel : ℕ) (f : E → F) (w v : E) (c : ℕ), n < fuel →
    taylorizeR fuel f w v ((c + n : ℕ) : ℤ) c =
      .ok (∑ k ∈ Finset.range (n + 1), ((c.factorial : ℝ) / ((c + k).factorial : ℝ)) • iteratedDeriv k (line f w v) 0)
  | 0, fuel + 1, f, w, v, c, _ => by
    have : (c.factorial : ℝ) ≠ 0 := by positivity
    simp [taylorizeR, line, div_self this]
  | n + 1, fuel + 1, f, w, v, c, h => by
    have hne : ¬ ((c : ℤ) = ((c + (n + 1) : ℕ) : ℤ)) := by omega
    have ih := taylorizeR_eq n fuel (fun p => (jvp f p v).2) w v (c + 1) (by omega)
    rw [show (c + (n + 1) : ℕ) = c + 1 + n by omega] at hne ⊢
    rw [taylorizeR, if_neg hne]
    simp only [ih]
    congr 1
    rw [Finset.sum_range_succ' _ (n + 1), Finset.smul_sum, add_comm]
    have hc : (c.factorial : ℝ) ≠ 0 := by positivity
    congr 1
    · refine Finset.sum_congr rfl fun k _ => ?_
      rw [smul_smul, iteratedDeriv_succ', deriv_line]
      congr 1
      rw [show c + (k + 1) = c + 1 + k by omega, Nat.factorial_succ]
      have h1 : ((c + 1 + k).factorial : ℝ) ≠ 0 := by positivity
      have h2 : ((c + 1 : ℕ) : ℝ) ≠ 0 := by positivity
      push_cast at h2 ⊢
      field_simp
    · simp [line, div_self hc]

/-- `taylor_expand` is the Taylor polynomial: the sum of the derivatives along the line from `params` to `p`, over the factorials. -/
theorem taylor_sum (fuel n : ℕ) (h : n < fuel) (f : E → X → F) (w p : E) (x : X) :
    taylorExpand fuel f w n p x =
      .ok (∑ k ∈ Finset.range (n + 1), ((k.factorial : ℝ)⁻¹) • iteratedDeriv k (fun t : ℝ => f (w + t • (p - w)) x) 0) := by
  have := taylorizeR_eq n fuel (fun q => f q x) w (p - w) 0 h
  simp only [Nat.zero_add] at this
  simp only [taylorExpand]
  rw [this]
  have e : line (fun q => f q x) w (p - w) = fun t : ℝ => f (w + t • (p - w)) x := rfl
  simp [e]

lemma iterated_poly : ∀ (k n : ℕ) (c : ℕ → F), k ≤ n →
    iteratedDeriv k (fun t : ℝ => ∑ j ∈ Finset.range (n + 1), t ^ j • c j) 0 = (k.factorial : ℝ) • c k
  | 0, n, c, _ => by
    rw [iteratedDeriv_zero, Finset.sum_eq_single 0]
    · simp
    · intro j _ hj
      simp [hj]
    · simp
  | k + 1, n, c, h => by
    obtain ⟨m, rfl⟩ : ∃ m, n = m + 1 := ⟨n - 1, by omega⟩
    have hd : deriv (fun t : ℝ => ∑ j ∈ Finset.range (m + 1 + 1), t ^ j • c j) =
        fun t => ∑ j ∈ Finset.range (m + 1), t ^ j • (((j + 1 : ℕ) : ℝ) • c (j + 1)) := by
      funext t
      have : HasDerivAt (fun t : ℝ => ∑ j ∈ Finset.range (m + 1 + 1), t ^ j • c j)
          (∑ j ∈ Finset.range (m + 1 + 1), ((j : ℝ) * t ^ (j - 1)) • c j) t := by
        refine HasDerivAt.fun_sum fun j _ => ?_
        exact (hasDerivAt_pow j t).smul_const (c j)
      rw [this.deriv, Finset.sum_range_succ']
      simp only [Nat.cast_zero, zero_mul, zero_smul, add_zero, Nat.add_sub_cancel]
      refine Finset.sum_congr rfl fun j _ => ?_
      rw [smul_smul, mul_comm]
    rw [iteratedDeriv_succ', hd, iterated_poly k m (fun j => ((j + 1 : ℕ) : ℝ) • c (j + 1)) (by omega), smul_smul,
      Nat.factorial_succ]
    congr 1
    push_cast
    ring

/-- The expansion of a function that is polynomial of degree at most `n` along the line to `p` is exact. -/
theorem exact_polynomial (fuel n : ℕ) (h : n < fuel) (f : E → X → F) (w p : E) (x : X) (c : ℕ → F)
    (hf : ∀ t : ℝ, f (w + t • (p - w)) x = ∑ k ∈ Finset.range (n + 1), t ^ k • c k) :
    taylorExpand fuel f w n p x = .ok (f p x) := by
  rw [taylor_sum fuel n h]
  congr 1
  have h1 := hf 1
  simp only [one_smul, add_sub_cancel, one_pow] at h1
  rw [h1]
  refine Finset.sum_congr rfl fun k hk => ?_
  rw [show (fun t : ℝ => f (w + t • (p - w)) x) = fun t : ℝ => ∑ j ∈ Finset.range (n + 1), t ^ j • c j from funext hf,
    iterated_poly k n c (by simpa [Nat.lt_succ_iff] using hk), smul_smul, inv_mul_cancel₀ (by positivity), one_smul]

/-- Degree 1 is `linearize`, for any function. -/
theorem degree_one (fuel : ℕ) (h : 1 < fuel) (f : E → X → F) (w p : E) (x : X) :
    taylorExpand fuel f w 1 p x = .ok (linearize f w p x) := by
  have := taylor_sum fuel 1 h f w p x
  rw [Nat.cast_one] at this
  rw [this]
  simp only [Finset.sum_range_succ, Finset.range_zero, Finset.sum_empty, zero_add, Nat.factorial_zero, Nat.factorial_one, Nat.cast_one,
    inv_one, one_smul, iteratedDeriv_zero, iteratedDeriv_one, zero_smul, add_zero, linearize, jvp, lineDeriv]

/-- Degree 0 is constant. -/
theorem degree_zero (fuel : ℕ) (h : 0 < fuel) (f : E → X → F) (w p : E) (x : X) : taylorExpand fuel f w 0 p x = .ok (f w x) := by
  have := taylor_sum fuel 0 h f w p x
  rw [Nat.cast_zero] at this
  rw [this]
  simp

/-- At the expansion point any degree gives the value of the function. -/
theorem value (fuel n : ℕ) (h : n < fuel) (f : E → X → F) (w : E) (x : X) : taylorExpand fuel f w n w x = .ok (f w x) :=
  exact_polynomial fuel n h f w w x (fun k => if k = 0 then f w x else 0) fun t => by
    rw [Finset.sum_eq_single 0]
    · simp
    · intro j _ hj; simp [hj]
    · simp

lemma negative_aux : ∀ (fuel : ℕ) (f : E → F) (w v : E) (d : ℤ) (c : ℕ), d < 0 → taylorizeR fuel f w v d c = .error .assertion
  | 0, _, _, _, _, _, _ => rfl
  | fuel + 1, f, w, v, d, c, h => by
    rw [taylorizeR, if_neg (by omega)]
    simp only [negative_aux fuel (fun p => (jvp f p v).2) w v d (c + 1) h]

/-- A negative degree raises (the recursion does not end), whatever depth of recursion is allowed. -/
theorem negative_raises (fuel : ℕ) (f : E → X → F) (w p : E) (x : X) (d : ℤ) (h : d < 0) :
    taylorExpand fuel f w d p x = .error .assertion := negative_aux fuel _ _ _ d 0 h

/-- A degree beyond the allowed depth of recursion raises. -/
theorem deep_raises (fuel n : ℕ) (h : fuel ≤ n) (f : E → X → F) (w p : E) (x : X) :
    taylorExpand fuel f w n p x = .error .assertion := by
  suffices ∀ (fuel : ℕ) (g : E → F) (v : E) (c n : ℕ), c + fuel ≤ n → taylorizeR fuel g w v n c = .error .assertion by
    exact this fuel _ _ 0 n (by omega)
  intro fuel
  induction fuel with
  | zero => intros; rfl
  | succ fuel ih =>
    intro g v c n hn
    rw [taylorizeR, if_neg (by omega)]
    simp only [ih (fun p => (jvp g p v).2) v (c + 1) n (by omega)]

/-- Taylor's theorem: the error of the expansion is at most the size of the next derivative along the line over `n!`. -/
theorem remainder (fuel n : ℕ) (h : n < fuel) (f : E → X → F) (w p : E) (x : X) (C : ℝ)
    (hf : ContDiff ℝ (n + 1) fun t : ℝ => f (w + t • (p - w)) x)
    (hC : ∀ t ∈ Set.Icc (0 : ℝ) 1, ‖iteratedDeriv (n + 1) (fun t : ℝ => f (w + t • (p - w)) x) t‖ ≤ C) :
    ∃ r, taylorExpand fuel f w n p x = .ok r ∧ ‖f p x - r‖ ≤ C / n.factorial := by
  refine ⟨_, taylor_sum fuel n h f w p x, ?_⟩
  set g : ℝ → F := fun t => f (w + t • (p - w)) x with hg
  have hu : UniqueDiffOn ℝ (Set.Icc (0 : ℝ) 1) := uniqueDiffOn_Icc zero_lt_one
  have b := taylor_mean_remainder_bound (f := g) (a := 0) (b := 1) (C := C) (x := 1) (n := n) zero_le_one hf.contDiffOn
    (by simp) (fun y hy => by
      rw [iteratedDerivWithin_eq_iteratedDeriv hu (by exact_mod_cast hf.contDiffAt) hy]
      exact hC y hy)
  have g1 : g 1 = f p x := by simp [hg]
  rw [g1, taylor_within_apply] at b
  have e : ∑ k ∈ Finset.range (n + 1), ((k.factorial : ℝ)⁻¹) • iteratedDeriv k g 0 =
      ∑ k ∈ Finset.range (n + 1), (((k.factorial : ℝ)⁻¹) * (1 - 0) ^ k) • iteratedDerivWithin k g (Set.Icc 0 1) 0 := by
    refine Finset.sum_congr rfl fun k hk => ?_
    have hk' : (k : WithTop ℕ∞) ≤ n + 1 := by
      have : k ≤ n + 1 := by
        have := Finset.mem_range.1 hk
        omega
      exact_mod_cast this
    rw [iteratedDerivWithin_eq_iteratedDeriv hu ((hf.of_le hk').contDiffAt) (by simp)]
    simp
  rw [e]
  simpa using b

/-! ### A concrete case: the cube of the parameter -/

example (p : ℝ) : taylorExpand 10 (fun (p x : ℝ) => p ^ 3 * x) 2 3 p 5 = .ok (p ^ 3 * 5) :=
  exact_polynomial 10 3 (by norm_num) _ 2 p 5
    (fun k => if k = 0 then 40 else if k = 1 then 60 * (p - 2) else if k = 2 then 30 * (p - 2) ^ 2 else 5 * (p - 2) ^ 3) fun t => by
      simp only [Finset.sum_range_succ, Finset.range_zero, Finset.sum_empty, smul_eq_mul]
      norm_num
      ring

example (p : ℝ) : ∃ r, taylorExpand 10 (fun (p _ : ℝ) => Real.exp p) 0 0 p 5 = .ok r ∧ ‖Real.exp p - r‖ ≤ (|p| * Real.exp |p|) / 1 := by
  have hd : ∀ t : ℝ, HasDerivAt (fun t : ℝ => Real.exp (0 + t • (p - 0))) (Real.exp (t * p) * p) t := by
    intro t
    have := ((hasDerivAt_id t).mul_const p).exp
    simpa using this
  have := remainder 10 0 (by norm_num) (fun (p _ : ℝ) => Real.exp p) 0 p 5 (|p| * Real.exp |p|) (by fun_prop) (fun t ht => by
    rw [zero_add, iteratedDeriv_one, (hd t).deriv, norm_mul, Real.norm_eq_abs, Real.norm_eq_abs, abs_of_pos (Real.exp_pos _), mul_comm]
    refine mul_le_mul_of_nonneg_left (Real.exp_le_exp.2 ?_) (abs_nonneg p)
    calc t * p ≤ |t * p| := le_abs_self _
      _ = t * |p| := by rw [abs_mul, abs_of_nonneg ht.1]
      _ ≤ 1 * |p| := by gcongr; exact ht.2
      _ = |p| := one_mul _)
  simpa using this

end NT.C71
