import Verif.Tac
import Verif.Lemmas.Elementwise
import Verif.Lemmas.GaussExp
import Verif.Props.C42

/-!
# C91: the `ExpNormalized` layer

The layer has no finite width counterpart in the code.  Its kernel is the one of an exponential function applied to normalised activations, with the
standard deviation restored afterwards.
-/

namespace NT.C91
open NT Arr Kernel Spec MeasureTheory Gauss

/-- `L'` is the kernel `L` after a function `φ v` that may depend on the variance `v` of its argument, with derivative `dφ v`. -/
structure DualOfVar (φ dφ : ℝ → ℝ → ℝ) (L L' : Logical ℝ) : Prop where
  dims : (L'.n1, L'.n2, L'.S1, L'.S2) = (L.n1, L.n2, L.S1, L.S2)
  k12 : ∀ i j p q, i < L.n1 → j < L.n2 → InRange p L.S1 → InRange q L.S2 → ∀ P,
    GaussPair P (L.k11 [i, i] p p) (L.k12 [i, j] p q) (L.second [j, j] q q) →
    L'.k12 [i, j] p q = ∫ x, φ (L.k11 [i, i] p p) x.1 * φ (L.second [j, j] q q) x.2 ∂P
  k11 : ∀ i j p q, i < L.n1 → j < L.n1 → InRange p L.S1 → InRange q L.S1 → ∀ P,
    GaussPair P (L.k11 [i, i] p p) (L.k11 [i, j] p q) (L.k11 [j, j] q q) →
    L'.k11 [i, j] p q = ∫ x, φ (L.k11 [i, i] p p) x.1 * φ (L.k11 [j, j] q q) x.2 ∂P
  k22 : OptRel (fun F' F => ∀ i j p q, i < L.n2 → j < L.n2 → InRange p L.S2 → InRange q L.S2 → ∀ P,
    GaussPair P (F [i, i] p p) (F [i, j] p q) (F [j, j] q q) →
    F' [i, j] p q = ∫ x, φ (F [i, i] p p) x.1 * φ (F [j, j] q q) x.2 ∂P) L'.k22 L.k22
  ntk : OptRel (fun F' F => ∀ i j p q, i < L.n1 → j < L.n2 → InRange p L.S1 → InRange q L.S2 → ∀ P,
    GaussPair P (L.k11 [i, i] p p) (L.k12 [i, j] p q) (L.second [j, j] q q) →
    F' [i, j] p q = F [i, j] p q * ∫ x, dφ (L.k11 [i, i] p p) x.1 * dφ (L.second [j, j] q q) x.2 ∂P) L'.ntk L.ntk

/-- The function of activations of variance `v`: `σ exp(√γ x / σ + γ (shift - 1) / 2)` with `σ = √v`. -/
noncomputable def normExp (gamma shift v x : ℝ) : ℝ :=
  Real.sqrt v * Real.exp (Real.sqrt gamma * (x / Real.sqrt v) + gamma * (shift - 1) / 2)

lemma sqrtTol_prod {v1 v2 : ℝ} (h1 : 1e-15 ≤ v1) (h2 : 1e-15 ≤ v2) : sqrtTol (v1 * v2) 1e-30 = Real.sqrt v1 * Real.sqrt v2 := by
  unfold sqrtTol
  rw [max_eq_left (by nlinarith), Real.sqrt_mul (by linarith)]

/-- The normalised covariance; clipping has no effect on it. -/
lemma corr_bound {P : Measure (ℝ × ℝ)} {q11 q12 q22 : ℝ} (hP : GaussPair P q11 q12 q22) (h1 : 0 < q11) (h2 : 0 < q22) :
    max (-1) (min (q12 / (Real.sqrt q11 * Real.sqrt q22)) 1) = q12 / (Real.sqrt q11 * Real.sqrt q22) := by
  have hs : 0 < Real.sqrt q11 * Real.sqrt q22 := mul_pos (Real.sqrt_pos.2 h1) (Real.sqrt_pos.2 h2)
  have hb : |q12| ≤ Real.sqrt q11 * Real.sqrt q22 := by
    rw [← Real.sqrt_mul h1.le, ← Real.sqrt_sq_eq_abs]
    exact Real.sqrt_le_sqrt hP.cs
  have hb := abs_le.1 hb
  rw [min_eq_left (by rw [div_le_one hs]; exact hb.2), max_eq_right]
  rw [le_div_iff₀ hs]
  linarith [hb.1]

/-- The expectation of the product of the exponentials. -/
lemma expect {P : Measure (ℝ × ℝ)} {q11 q12 q22 gamma shift : ℝ} (hP : GaussPair P q11 q12 q22) (h1 : 0 < q11) (h2 : 0 < q22) (hg : 0 ≤ gamma) :
    ∫ x, Real.exp (Real.sqrt gamma * (x.1 / Real.sqrt q11) + gamma * (shift - 1) / 2) *
      Real.exp (Real.sqrt gamma * (x.2 / Real.sqrt q22) + gamma * (shift - 1) / 2) ∂P =
    Real.exp (gamma * (q12 / (Real.sqrt q11 * Real.sqrt q22) + shift)) := by
  have s1 := (Real.sqrt_pos.2 h1).ne'
  have s2 := (Real.sqrt_pos.2 h2).ne'
  have e : (fun x : ℝ × ℝ => Real.exp (Real.sqrt gamma * (x.1 / Real.sqrt q11) + gamma * (shift - 1) / 2) *
      Real.exp (Real.sqrt gamma * (x.2 / Real.sqrt q22) + gamma * (shift - 1) / 2)) =
      fun x => Real.exp (gamma * (shift - 1)) * Real.exp (Real.sqrt gamma / Real.sqrt q11 * x.1 + Real.sqrt gamma / Real.sqrt q22 * x.2) := by
    funext x
    rw [← Real.exp_add, ← Real.exp_add]
    congr 1
    ring
  rw [e, integral_const_mul, hP.exp, ← Real.exp_add]
  congr 1
  have g2 := Real.sq_sqrt hg
  have a1 := Real.sq_sqrt h1.le
  have a2 := Real.sq_sqrt h2.le
  have b1 : (Real.sqrt gamma / Real.sqrt q11) ^ 2 * q11 = gamma := by
    rw [div_pow, g2, a1]
    field_simp
  have b2 : (Real.sqrt gamma / Real.sqrt q22) ^ 2 * q22 = gamma := by
    rw [div_pow, g2, a2]
    field_simp
  have b3 : 2 * (Real.sqrt gamma / Real.sqrt q11) * (Real.sqrt gamma / Real.sqrt q22) * q12 = 2 * (gamma * (q12 / (Real.sqrt q11 * Real.sqrt q22))) := by
    rw [show 2 * (Real.sqrt gamma / Real.sqrt q11) * (Real.sqrt gamma / Real.sqrt q22) * q12 = 2 * (Real.sqrt gamma ^ 2 * (q12 / (Real.sqrt q11 * Real.sqrt q22))) by
      field_simp, g2]
  rw [b1, b2, b3]
  ring

lemma normExp_deriv (gamma shift : ℝ) {v : ℝ} (hv : 0 < v) (x : ℝ) : HasDerivAt (normExp gamma shift v)
    (Real.sqrt gamma * Real.exp (Real.sqrt gamma * (x / Real.sqrt v) + gamma * (shift - 1) / 2)) x := by
  have s := (Real.sqrt_pos.2 hv).ne'
  have h : HasDerivAt (fun x : ℝ => Real.sqrt gamma * (x / Real.sqrt v) + gamma * (shift - 1) / 2) (Real.sqrt gamma * (1 / Real.sqrt v)) x :=
    (((hasDerivAt_id x).div_const _).const_mul _).add_const _
  refine (h.exp.const_mul (Real.sqrt v)).congr_deriv ?_
  field_simp

lemma nngp_eq {P : Measure (ℝ × ℝ)} {q11 q12 q22 gamma shift : ℝ} (c : Bool) (hP : GaussPair P q11 q12 q22) (h1 : 1e-15 ≤ q11) (h2 : 1e-15 ≤ q22)
    (hg : 0 ≤ gamma) : (expNormalizedDual gamma shift c).nngp q12 (q11 * q22) = ∫ x, normExp gamma shift q11 x.1 * normExp gamma shift q22 x.2 ∂P := by
  have p1 : 0 < q11 := by linarith
  have p2 : 0 < q22 := by linarith
  have e : (fun x : ℝ × ℝ => normExp gamma shift q11 x.1 * normExp gamma shift q22 x.2) = fun x => Real.sqrt q11 * Real.sqrt q22 *
      (Real.exp (Real.sqrt gamma * (x.1 / Real.sqrt q11) + gamma * (shift - 1) / 2) *
      Real.exp (Real.sqrt gamma * (x.2 / Real.sqrt q22) + gamma * (shift - 1) / 2)) := by
    funext x
    unfold normExp
    ring
  rw [e, integral_const_mul, expect hP p1 p2 hg]
  simp only [expNormalizedDual]
  rw [sqrtTol_prod h1 h2]
  cases c
  · rfl
  · rw [if_pos rfl, corr_bound hP p1 p2]

lemma dot_eq {P : Measure (ℝ × ℝ)} {q11 q12 q22 gamma shift : ℝ} (c : Bool) (hP : GaussPair P q11 q12 q22) (h1 : 1e-15 ≤ q11) (h2 : 1e-15 ≤ q22)
    (hg : 0 ≤ gamma) : (expNormalizedDual gamma shift c).dot q12 (q11 * q22) =
      ∫ x, deriv (normExp gamma shift q11) x.1 * deriv (normExp gamma shift q22) x.2 ∂P := by
  have p1 : 0 < q11 := by linarith
  have p2 : 0 < q22 := by linarith
  have e : (fun x : ℝ × ℝ => deriv (normExp gamma shift q11) x.1 * deriv (normExp gamma shift q22) x.2) = fun x => gamma *
      (Real.exp (Real.sqrt gamma * (x.1 / Real.sqrt q11) + gamma * (shift - 1) / 2) *
      Real.exp (Real.sqrt gamma * (x.2 / Real.sqrt q22) + gamma * (shift - 1) / 2)) := by
    funext x
    rw [(normExp_deriv gamma shift p1 x.1).deriv, (normExp_deriv gamma shift p2 x.2).deriv]
    have g2 := Real.mul_self_sqrt hg
    calc _ = Real.sqrt gamma * Real.sqrt gamma * (Real.exp (Real.sqrt gamma * (x.1 / Real.sqrt q11) + gamma * (shift - 1) / 2) *
      Real.exp (Real.sqrt gamma * (x.2 / Real.sqrt q22) + gamma * (shift - 1) / 2)) := by ring
      _ = _ := by rw [g2]
  rw [e, integral_const_mul, expect hP p1 p2 hg]
  simp only [expNormalizedDual]
  rw [sqrtTol_prod h1 h2]
  cases c
  · rfl
  · rw [if_pos rfl, corr_bound hP p1 p2]

/-- `ExpNormalized(gamma, shift, do_clip)` for `gamma ≥ 0`: the result stores the expectations of the normalised exponential function, whatever `do_clip`. -/
theorem kernel_exact (gamma shift : ℝ) (doClip : Bool) (hγ : 0 ≤ gamma) (k : Kernel ℝ) (L : Logical ℝ) (hk : k.Stores L) (hc : L.Closed)
    (hv : L.Vars (fun v => 1e-15 ≤ v)) (hg : k.isGaussian = true) :
    ∃ k' L', expNormalizedKernelFn gamma shift doClip k = .ok k' ∧ k'.Stores L' ∧ AfterElementwise k k' ∧
      DualOfVar (normExp gamma shift) (fun v => deriv (normExp gamma shift v)) L L' := by
  set D := expNormalizedDual gamma shift doClip with hD
  obtain ⟨k0, h0, h1, h2, h3, h4, h5, -⟩ := D.kernelFn_ok hk hc hv (fun v _ => rfl)
  obtain ⟨k', g1, g2, g3⟩ := elementwise_ok (f := D.kernelFn) hg h0 h1 h2 h3 h4 h5
  refine ⟨k', _, g1, g2, g3, rfl, ?_, ?_, ?_, ?_⟩
  · exact fun i j p q hi hj hp hq P hP => nngp_eq doClip hP (hv.one i p hi hp) (hv.second hc j q hj hq) hγ
  · exact fun i j p q hi hj hp hq P hP => nngp_eq doClip hP (hv.one i p hi hp) (hv.one j q hj hq) hγ
  · simp only [DualFn.logical]
    cases e : L.k22 with
    | none => trivial
    | some F => exact fun i j p q hi hj hp hq P hP => nngp_eq doClip hP (hv.two F e i p hi hp) (hv.two F e j q hj hq) hγ
  · simp only [DualFn.logical]
    cases e : L.ntk with
    | none => trivial
    | some F =>
      exact fun i j p q hi hj hp hq P hP => congrArg (F [i, j] p q * ·) (dot_eq doClip hP (hv.one i p hi hp) (hv.second hc j q hj hq) hγ)

/-- The formula for any `gamma`, and with `shift = -1` the variances are unchanged: the layer changes correlations only. -/
theorem kernel_formula (gamma : ℝ) (k : Kernel ℝ) (L : Logical ℝ) (hk : k.Stores L) (hc : L.Closed)
    (hv : L.Vars (fun v => 1e-15 ≤ v)) (hg : k.isGaussian = true) :
    ∃ k' L', expNormalizedKernelFn gamma (-1) false k = .ok k' ∧ k'.Stores L' ∧ AfterElementwise k k' ∧
      (∀ i j p q, i < L.n1 → j < L.n2 → InRange p L.S1 → InRange q L.S2 → L'.k12 [i, j] p q =
        Real.sqrt (L.k11 [i, i] p p) * Real.sqrt (L.second [j, j] q q) *
          Real.exp (gamma * (L.k12 [i, j] p q / (Real.sqrt (L.k11 [i, i] p p) * Real.sqrt (L.second [j, j] q q)) - 1))) ∧
      (∀ i p, i < L.n1 → InRange p L.S1 → L'.k11 [i, i] p p = L.k11 [i, i] p p) ∧
      (∀ F F', L.k22 = some F → L'.k22 = some F' → ∀ i p, i < L.n2 → InRange p L.S2 → F' [i, i] p p = F [i, i] p p) := by
  set D := expNormalizedDual gamma (-1) false with hD
  have hdiag : ∀ v : ℝ, 1e-15 ≤ v → D.nngp v (D.op (D.den v) (D.den v)) = v := by
    intro v hv
    have p : 0 < v := by linarith
    simp only [hD, expNormalizedDual, id, Bool.false_eq_true, if_false]
    rw [sqrtTol_prod hv hv, Real.mul_self_sqrt p.le, div_self p.ne']
    simp
  obtain ⟨k0, h0, h1, h2, h3, h4, h5, -⟩ := D.kernelFn_ok hk hc hv (fun v _ => rfl)
  obtain ⟨k', g1, g2, g3⟩ := elementwise_ok (f := D.kernelFn) hg h0 h1 h2 h3 h4 h5
  refine ⟨k', _, g1, g2, g3, ?_, fun i p hi hp => hdiag _ (hv.one i p hi hp), ?_⟩
  · intro i j p q hi hj hp hq
    have : (D.logical L).k12 [i, j] p q = D.nngp (L.k12 [i, j] p q) (L.k11 [i, i] p p * L.second [j, j] q q) := rfl
    rw [this]
    simp only [hD, expNormalizedDual, Bool.false_eq_true, if_false]
    rw [sqrtTol_prod (hv.one i p hi hp) (hv.second hc j q hj hq)]
    rfl
  · intro F F' e e' i p hi hp
    simp only [DualFn.logical, e, Option.map_some, Option.some.injEq] at e'
    subst e'
    exact hdiag _ (hv.two F e i p hi hp)

lemma exL_vars : C42.exL.Vars (fun v => 1e-15 ≤ v) := by
  refine ⟨fun i p _ _ => ?_, fun F hF i p _ _ => ?_⟩
  · simp [C42.exL]
    norm_num
  · obtain rfl := Option.some.inj hF
    simp
    norm_num

example (db ds rev clip : Bool) : ∃ k' L', expNormalizedKernelFn 2 (-1) clip { C42.exL.encode db ds rev with isGaussian := true } = .ok k' ∧ k'.Stores L' ∧
    DualOfVar (normExp 2 (-1)) (fun v => deriv (normExp 2 (-1) v)) C42.exL L' := by
  obtain ⟨k', L', h1, h2, -, h3⟩ := kernel_exact 2 (-1) clip (by norm_num) _ C42.exL (C42.exL_stores db ds rev) C42.exL_closed exL_vars rfl
  exact ⟨k', L', h1, h2, h3⟩

example (db ds rev : Bool) : ∃ k' L', expNormalizedKernelFn 2 (-1) false { C42.exL.encode db ds rev with isGaussian := true } = .ok k' ∧ k'.Stores L' ∧
    L'.k11 [0, 0] [1] [1] = 2 := by
  obtain ⟨k', L', h1, h2, -, -, h3, -⟩ := kernel_formula 2 _ C42.exL (C42.exL_stores db ds rev) C42.exL_closed exL_vars rfl
  refine ⟨k', L', h1, h2, ?_⟩
  rw [h3 0 [1] (by simp [C42.exL]) (.cons (by norm_num) .nil)]
  simp [C42.exL]

end NT.C91
