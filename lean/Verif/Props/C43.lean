import Verif.Lemmas.Elementwise
import Verif.Lemmas.GaussExp
import Verif.Props.C42

/-!
# C43: the `Sin`, `Cos` and `Rbf` layers compute the Gaussian expectations
-/

namespace NT.C43
open NT Arr Kernel Spec MeasureTheory

lemma integrable_cos {P : Measure (ℝ × ℝ)} [IsProbabilityMeasure P] (s t c : ℝ) :
    Integrable (fun x : ℝ × ℝ => Real.cos (s * x.1 + t * x.2 + c)) P :=
  Integrable.of_bound (by fun_prop) 1 (Filter.Eventually.of_forall fun x => by
    rw [Real.norm_eq_abs]; exact Real.abs_cos_le_one _)

lemma sin_exact (a b c : ℝ) : (sinDual a b c).Exact (fun _ => True) (sinFn a b c) (fun x => a * (b * Real.cos (b * x + c))) where
  diag v _ := by
    simp only [sinDual, id]
    have e1 : b ^ 2 * (-0.5 * (v + v) + v) = 0 := by ring
    have e2 : b ^ 2 * (-0.5 * (v + v) - v) = -2 * b ^ 2 * v := by ring
    rw [e1, e2, Real.exp_zero]
  nngp {P q11 q12 q22} hP _ _ := by
    have := hP.gaussian
    have h1 := hP.cos_shift b (-b) 0
    have h2 := hP.cos_shift b b (2 * c)
    have e : (fun x : ℝ × ℝ => sinFn a b c x.1 * sinFn a b c x.2) =
        fun x => a ^ 2 / 2 * Real.cos (b * x.1 + -b * x.2 + 0) - a ^ 2 / 2 * Real.cos (b * x.1 + b * x.2 + 2 * c) := by
      funext x
      have e1 : b * x.1 + -b * x.2 + 0 = (b * x.1 + c) - (b * x.2 + c) := by ring
      have e2 : b * x.1 + b * x.2 + 2 * c = (b * x.1 + c) + (b * x.2 + c) := by ring
      rw [e1, e2, Real.cos_sub (b * x.1 + c) (b * x.2 + c), Real.cos_add (b * x.1 + c) (b * x.2 + c)]
      unfold sinFn
      ring
    rw [e, integral_sub ((integrable_cos _ _ _).const_mul _) ((integrable_cos _ _ _).const_mul _), integral_const_mul,
      integral_const_mul, h1, h2]
    simp only [sinDual, id, Real.cos_zero, mul_one]
    have e1 : b ^ 2 * (-0.5 * (q11 + q22) + q12) = -((b ^ 2 * q11 + 2 * b * -b * q12 + (-b) ^ 2 * q22) / 2) := by ring
    have e2 : b ^ 2 * (-0.5 * (q11 + q22) - q12) = -((b ^ 2 * q11 + 2 * b * b * q12 + b ^ 2 * q22) / 2) := by ring
    rw [e1, e2]
    ring
  dot {P q11 q12 q22} hP _ _ := by
    have := hP.gaussian
    have h1 := hP.cos_shift b (-b) 0
    have h2 := hP.cos_shift b b (2 * c)
    have e : (fun x : ℝ × ℝ => a * (b * Real.cos (b * x.1 + c)) * (a * (b * Real.cos (b * x.2 + c)))) =
        fun x => a ^ 2 / 2 * b ^ 2 * Real.cos (b * x.1 + -b * x.2 + 0) +
          a ^ 2 / 2 * b ^ 2 * Real.cos (b * x.1 + b * x.2 + 2 * c) := by
      funext x
      have e1 : b * x.1 + -b * x.2 + 0 = (b * x.1 + c) - (b * x.2 + c) := by ring
      have e2 : b * x.1 + b * x.2 + 2 * c = (b * x.1 + c) + (b * x.2 + c) := by ring
      rw [e1, e2, Real.cos_sub (b * x.1 + c) (b * x.2 + c), Real.cos_add (b * x.1 + c) (b * x.2 + c)]
      ring
    rw [e, integral_add ((integrable_cos _ _ _).const_mul _) ((integrable_cos _ _ _).const_mul _), integral_const_mul,
      integral_const_mul, h1, h2]
    simp only [sinDual, id, Real.cos_zero, mul_one]
    have e1 : b ^ 2 * (-0.5 * (q11 + q22) + q12) = -((b ^ 2 * q11 + 2 * b * -b * q12 + (-b) ^ 2 * q22) / 2) := by ring
    have e2 : b ^ 2 * (-0.5 * (q11 + q22) - q12) = -((b ^ 2 * q11 + 2 * b * b * q12 + b ^ 2 * q22) / 2) := by ring
    rw [e1, e2]
    ring

lemma deriv_sinFn (a b c : ℝ) : deriv (sinFn a b c) = fun x => a * (b * Real.cos (b * x + c)) := by
  funext x
  have : HasDerivAt (sinFn a b c) (a * (Real.cos (b * x + c) * (b * 1))) x :=
    (((((hasDerivAt_id x).const_mul b).add_const c).sin).const_mul a)
  rw [this.deriv]
  ring

/-- `Sin(a, b, c)`: the result stores the expectations for `φ(x) = a sin(b x + c)`. -/
theorem sin_kernel_exact (a b c : ℝ) (k : Kernel ℝ) (L : Logical ℝ) (hk : k.Stores L) (hc : L.Closed)
    (hg : k.isGaussian = true) :
    ∃ k' L', sinKernelFn a b c k = .ok k' ∧ k'.Stores L' ∧ AfterElementwise k k' ∧
      DualOf (fun x => a * Real.sin (b * x + c)) (deriv fun x => a * Real.sin (b * x + c)) L L' := by
  have hv : L.Vars (fun _ => True) := ⟨fun _ _ _ _ => trivial, fun _ _ _ _ _ _ => trivial⟩
  obtain ⟨k0, h0, h1, h2, h3, h4, h5, -⟩ := (sinDual a b c).kernelFn_ok hk hc hv (sin_exact a b c).diag
  obtain ⟨k', g1, g2, g3⟩ := elementwise_ok (f := (sinDual a b c).kernelFn) hg h0 h1 h2 h3 h4 h5
  refine ⟨k', _, g1, g2, g3, ?_⟩
  have h := (sin_exact a b c).dualOf hc hv
  rw [← deriv_sinFn] at h
  exact h

/-- `Cos(a, b, c)`: the result stores the expectations for `φ(x) = a cos(b x + c)`. -/
theorem cos_kernel_exact (a b c : ℝ) (k : Kernel ℝ) (L : Logical ℝ) (hk : k.Stores L) (hc : L.Closed)
    (hg : k.isGaussian = true) :
    ∃ k' L', cosKernelFn a b c k = .ok k' ∧ k'.Stores L' ∧ AfterElementwise k k' ∧
      DualOf (fun x => a * Real.cos (b * x + c)) (deriv fun x => a * Real.cos (b * x + c)) L L' := by
  have e : (fun x => a * Real.cos (b * x + c)) = fun x => a * Real.sin (b * x + (c + Real.pi / 2)) := by
    funext x
    rw [← add_assoc, Real.sin_add_pi_div_two]
  rw [e]
  exact sin_kernel_exact a b (c + Real.pi / 2) k L hk hc hg

/-- The activations of `Cos(a, b, c)`. -/
theorem cos_apply (a b c x : ℝ) : cosFn a b c x = a * Real.cos (b * x + c) := by
  unfold cosFn sinFn
  rw [← add_assoc, Real.sin_add_pi_div_two]

lemma rbf_eq_sin (gamma : ℝ) (hγ : 0 ≤ gamma) :
    rbfDual gamma = sinDual (Real.sqrt 2) (Real.sqrt (2 * gamma)) (Real.pi / 4) := by
  have h1 : Real.sqrt 2 ^ 2 = 2 := Real.sq_sqrt (by norm_num)
  have h2 : Real.sqrt (2 * gamma) ^ 2 = 2 * gamma := Real.sq_sqrt (by linarith)
  have h3 : Real.cos (2 * (Real.pi / 4)) = 0 := by
    rw [show 2 * (Real.pi / 4) = Real.pi / 2 by ring, Real.cos_pi_div_two]
  unfold rbfDual sinDual
  congr 1
  · funext n s
    rw [h1, h2, h3]
    have : gamma * (-s + 2 * n) = 2 * gamma * (-0.5 * s + n) := by ring
    rw [this]
    ring
  · funext n s
    rw [h1, h2, h3]
    have : gamma * (-s + 2 * n) = 2 * gamma * (-0.5 * s + n) := by ring
    rw [this]
    ring
  · funext v
    rw [h1, h3]
    ring

/-- `Rbf(gamma)`: the result stores the expectations for `φ(x) = √2 sin(√(2 gamma) x + π/4)`. -/
theorem rbf_kernel_exact (gamma : ℝ) (hγ : 0 ≤ gamma) (k : Kernel ℝ) (L : Logical ℝ) (hk : k.Stores L) (hc : L.Closed)
    (hg : k.isGaussian = true) :
    ∃ k' L', rbfKernelFn gamma k = .ok k' ∧ k'.Stores L' ∧ AfterElementwise k k' ∧
      DualOf (rbfFn gamma) (deriv (rbfFn gamma)) L L' := by
  unfold rbfKernelFn
  rw [rbf_eq_sin gamma hγ]
  exact sin_kernel_exact _ _ _ k L hk hc hg

/-- The covariances after `Rbf` are the squared exponential kernel of the inputs. -/
theorem rbf_squared_exponential (gamma : ℝ) (k : Kernel ℝ) (L : Logical ℝ) (hk : k.Stores L) (hc : L.Closed)
    (hg : k.isGaussian = true) :
    ∃ k' L', rbfKernelFn gamma k = .ok k' ∧ k'.Stores L' ∧
      ∀ i j p q, L'.k12 [i, j] p q =
        Real.exp (-gamma * (L.k11 [i, i] p p + L.second [j, j] q q - 2 * L.k12 [i, j] p q)) := by
  have hv : L.Vars (fun _ => True) := ⟨fun _ _ _ _ => trivial, fun _ _ _ _ _ _ => trivial⟩
  obtain ⟨k0, h0, h1, h2, h3, h4, h5, -⟩ := (rbfDual gamma).kernelFn_ok hk hc hv (fun v _ => by simp [rbfDual]; ring_nf; simp)
  obtain ⟨k', g1, g2, g3⟩ := elementwise_ok (f := (rbfDual gamma).kernelFn) hg h0 h1 h2 h3 h4 h5
  refine ⟨k', _, g1, g2, ?_⟩
  intro i j p q
  simp only [DualFn.logical, rbfDual, id, List.getD_cons_zero, List.getD_cons_succ]
  congr 1
  ring

example (db ds rev : Bool) : ∃ k' L', sinKernelFn 2 3 (1 / 2) { C42.exL.encode db ds rev with isGaussian := true } = .ok k' ∧
    k'.Stores L' ∧ DualOf (fun x => 2 * Real.sin (3 * x + 1 / 2)) (deriv fun x => 2 * Real.sin (3 * x + 1 / 2)) C42.exL L' := by
  obtain ⟨k', L', h1, h2, -, h3⟩ := sin_kernel_exact 2 3 (1 / 2) _ C42.exL (C42.exL_stores db ds rev) C42.exL_closed rfl
  exact ⟨k', L', h1, h2, h3⟩

example (db ds rev : Bool) : ∃ k' L', cosKernelFn 2 3 (1 / 2) { C42.exL.encode db ds rev with isGaussian := true } = .ok k' ∧
    k'.Stores L' ∧ DualOf (fun x => 2 * Real.cos (3 * x + 1 / 2)) (deriv fun x => 2 * Real.cos (3 * x + 1 / 2)) C42.exL L' := by
  obtain ⟨k', L', h1, h2, -, h3⟩ := cos_kernel_exact 2 3 (1 / 2) _ C42.exL (C42.exL_stores db ds rev) C42.exL_closed rfl
  exact ⟨k', L', h1, h2, h3⟩

example (db ds rev : Bool) : ∃ k' L', rbfKernelFn 2 { C42.exL.encode db ds rev with isGaussian := true } = .ok k' ∧
    k'.Stores L' ∧ DualOf (rbfFn 2) (deriv (rbfFn 2)) C42.exL L' := by
  obtain ⟨k', L', h1, h2, -, h3⟩ := rbf_kernel_exact 2 (by norm_num) _ C42.exL (C42.exL_stores db ds rev) C42.exL_closed rfl
  exact ⟨k', L', h1, h2, h3⟩

example : cosFn 2 1 0 0 = 2 := by rw [cos_apply]; simp

example : ∃ k' L', rbfKernelFn 2 { C42.exL.encode false false false with isGaussian := true } = .ok k' ∧ k'.Stores L' ∧
    L'.k12 [0, 0] [0] [0] = Real.exp (-2) := by
  obtain ⟨k', L', h1, h2, h3⟩ := rbf_squared_exponential 2 _ C42.exL (C42.exL_stores false false false) C42.exL_closed rfl
  refine ⟨k', L', h1, h2, ?_⟩
  rw [h3]
  simp [C42.exL, Logical.second]

end NT.C43
