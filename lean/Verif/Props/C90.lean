import Verif.Tac
import Verif.Lemmas.Elementwise
import Verif.Lemmas.GaussPrice
import Verif.Props.C46
import Mathlib.Analysis.SpecialFunctions.Trigonometric.InverseDeriv

/-!
# C90: the `Elementwise` layer derives the tangent kernel from the user's `nngp_fn`

The user supplies the expectation `nngp_fn(cov12, var1, var2) = E[φ(u) φ(v)]`.  The layer obtains `E[φ'(u) φ'(v)]` by differentiating it with respect
to `cov12`.  That is Price's theorem, proved in `Lemmas/GaussPrice` for twice differentiable functions of polynomial growth.
-/

namespace NT.C90
open NT Arr Kernel Spec MeasureTheory Gauss

/-- The user's contract for `nngp_fn`, elementwise.py:1065-1070: the expectation, for every covariance matrix. -/
def IsNngpOf (φ : ℝ → ℝ) (f : ℝ → ℝ → ℝ → ℝ) : Prop :=
  ∀ (P : Measure (ℝ × ℝ)) (q11 q12 q22 : ℝ), GaussPair P q11 q12 q22 → f q12 q11 q22 = ∫ x, φ x.1 * φ x.2 ∂P

lemma eq_chol {φ : ℝ → ℝ} {f : ℝ → ℝ → ℝ → ℝ} (hm : Measurable φ) (hf : IsNngpOf φ f) {v1 v2 c : ℝ} (h1 : 0 < v1) (h : c ^ 2 ≤ v1 * v2) :
    f c v1 v2 = ∫ z, φ (chol v1 v2 c z).1 * φ (chol v1 v2 c z).2 ∂std2 := by
  rw [hf _ _ _ _ (chol_pair h1 h), integral_chol (f := fun x => φ x.1 * φ x.2) (by fun_prop)]

variable {φ φ' φ'' : ℝ → ℝ} {f : ℝ → ℝ → ℝ → ℝ}

/-- The derivative inside the domain of covariances. -/
lemma deriv_inside (hf : IsNngpOf φ f) (d1 : ∀ x, HasDerivAt φ (φ' x) x) (d2 : ∀ x, HasDerivAt φ' (φ'' x) x) (t0 : Tame φ) (t1 : Tame φ') (t2 : Tame φ'')
    {v1 v2 c : ℝ} (h1 : 0 < v1) (h : c ^ 2 < v1 * v2) :
    HasDerivAt (fun c => f c v1 v2) (∫ z, φ' (chol v1 v2 c z).1 * φ' (chol v1 v2 c z).2 ∂std2) c := by
  refine (price d1 d2 t0 t1 t2 h1 h).congr_of_eventuallyEq ?_
  have k : Continuous fun c : ℝ => c ^ 2 := by fun_prop
  filter_upwards [k.continuousAt.eventually_lt continuousAt_const h] with x hx
  exact eq_chol t0.meas hf h1 hx.le

/-- The derivative up to the boundary, where `nngp_fn` has to be continuously differentiable. -/
lemma deriv_closed (hf : IsNngpOf φ f) (d1 : ∀ x, HasDerivAt φ (φ' x) x) (d2 : ∀ x, HasDerivAt φ' (φ'' x) x) (t0 : Tame φ) (t1 : Tame φ') (t2 : Tame φ'')
    {v1 v2 c : ℝ} (h1 : 0 < v1) (h2 : 0 < v2) (h : c ^ 2 ≤ v1 * v2) (hb : c ^ 2 = v1 * v2 → ContinuousAt (deriv fun c => f c v1 v2) c) :
    deriv (fun c => f c v1 v2) c = ∫ z, φ' (chol v1 v2 c z).1 * φ' (chol v1 v2 c z).2 ∂std2 := by
  rcases lt_or_eq_of_le h with hl | he
  · exact (deriv_inside hf d1 d2 t0 t1 t2 h1 hl).deriv
  · have c' : Continuous φ' := continuous_iff_continuousAt.2 fun x => (d2 x).continuousAt
    have hG := continuous_expect (v1 := v1) (v2 := v2) c' c' t1 t1
    -- approach the boundary along a ray from the origin
    have hpath : Filter.Tendsto (fun t : ℝ => t * c) (nhdsWithin 1 (Set.Ioo 0 1)) (nhds c) := by
      have : Continuous fun t : ℝ => t * c := by fun_prop
      have := (this.tendsto 1).mono_left (nhdsWithin_le_nhds (s := Set.Ioo (0 : ℝ) 1))
      simpa using this
    have hne : (nhdsWithin (1 : ℝ) (Set.Ioo 0 1)).NeBot := by
      rw [← mem_closure_iff_nhdsWithin_neBot, closure_Ioo (by norm_num)]
      exact ⟨zero_le_one, le_rfl⟩
    have l1 := (hb he).tendsto.comp hpath
    have l2 := (hG.tendsto c).comp hpath
    refine tendsto_nhds_unique (l1.congr' ?_) l2
    filter_upwards [self_mem_nhdsWithin] with t ht
    have : (t * c) ^ 2 < v1 * v2 := by
      have hp : 0 < v1 * v2 := mul_pos h1 h2
      rw [mul_pow, he]
      have : t ^ 2 < 1 := by nlinarith [ht.1, ht.2]
      nlinarith
    exact (deriv_inside hf d1 d2 t0 t1 t2 h1 this).deriv

lemma auto_exact (hf : IsNngpOf φ f) (d1 : ∀ x, HasDerivAt φ (φ' x) x) (d2 : ∀ x, HasDerivAt φ' (φ'' x) x) (t0 : Tame φ) (t1 : Tame φ') (t2 : Tame φ'')
    (hb : ∀ v1 v2 c : ℝ, 0 < v1 → 0 < v2 → c ^ 2 = v1 * v2 → ContinuousAt (deriv fun c => f c v1 v2) c) :
    (elementwiseDual f none).Exact (fun v => 0 < v) φ φ' where
  diag _ _ := rfl
  nngp hP _ _ := hf _ _ _ _ hP
  dot {P q11 q12 q22} hP p1 p2 := by
    simp only [elementwiseDual, id]
    have m := t1.meas
    have hs : q12 ^ 2 ≤ q11 * q22 := hP.cs
    rw [deriv_closed hf d1 d2 t0 t1 t2 p1 p2 hs (hb q11 q22 q12 p1 p2), ← integral_chol (f := fun x => φ' x.1 * φ' x.2) (by fun_prop),
      hP.unique (chol_pair p1 hs)]

lemma given_exact {d : ℝ → ℝ → ℝ → ℝ} (hf : IsNngpOf φ f) (hd : IsNngpOf φ' d) : (elementwiseDual f (some d)).Exact (fun v => 0 ≤ v) φ φ' where
  diag _ _ := rfl
  nngp hP _ _ := hf _ _ _ _ hP
  dot hP _ _ := hd _ _ _ _ hP

/-- `Elementwise(fn, nngp_fn)` with automatic differentiation.  Let `fn` be twice differentiable, with `fn` and its derivatives of polynomial growth, and
let `nngp_fn` be the expectation `E[fn(u) fn(v)]`.  If its derivative with respect to the covariance is continuous where the two variables are
fully correlated, then the result stores `E[fn(u) fn(v)]`, and the tangent kernel multiplied by `E[fn'(u) fn'(v)]`. -/
theorem autodiff_exact (hf : IsNngpOf φ f) (d1 : ∀ x, HasDerivAt φ (φ' x) x) (d2 : ∀ x, HasDerivAt φ' (φ'' x) x)
    (t0 : Tame φ) (t1 : Tame φ') (t2 : Tame φ'')
    (hb : ∀ v1 v2 c : ℝ, 0 < v1 → 0 < v2 → c ^ 2 = v1 * v2 → ContinuousAt (deriv fun c => f c v1 v2) c)
    (k : Kernel ℝ) (L : Logical ℝ) (hk : k.Stores L) (hc : L.Closed) (hv : L.Vars (fun v => 0 < v)) (hg : k.isGaussian = true) :
    ∃ k' L', elementwiseKernelFn (some f) none k = .ok k' ∧ k'.Stores L' ∧ AfterElementwise k k' ∧ DualOf φ φ' L L' := by
  have he := auto_exact hf d1 d2 t0 t1 t2 hb
  obtain ⟨k0, h0, h1, h2, h3, h4, h5, -⟩ := (elementwiseDual f none).kernelFn_ok hk hc hv he.diag
  obtain ⟨k', g1, g2, g3⟩ := elementwise_ok (f := (elementwiseDual f none).kernelFn) hg h0 h1 h2 h3 h4 h5
  exact ⟨k', _, g1, g2, g3, he.dualOf hc hv⟩

/-- `Elementwise(fn, nngp_fn, d_nngp_fn)` with both expectations supplied: no condition on the function. -/
theorem given_derivative_exact {d : ℝ → ℝ → ℝ → ℝ} (hf : IsNngpOf φ f) (hd : IsNngpOf φ' d)
    (k : Kernel ℝ) (L : Logical ℝ) (hk : k.Stores L) (hc : L.Closed) (hv : L.Vars (fun v => 0 ≤ v)) (hg : k.isGaussian = true) :
    ∃ k' L', elementwiseKernelFn (some f) (some d) k = .ok k' ∧ k'.Stores L' ∧ AfterElementwise k k' ∧ DualOf φ φ' L L' := by
  have he := given_exact hf hd
  obtain ⟨k0, h0, h1, h2, h3, h4, h5, -⟩ := (elementwiseDual f (some d)).kernelFn_ok hk hc hv he.diag
  obtain ⟨k', g1, g2, g3⟩ := elementwise_ok (f := (elementwiseDual f (some d)).kernelFn) hg h0 h1 h2 h3 h4 h5
  exact ⟨k', _, g1, g2, g3, he.dualOf hc hv⟩

/-- Price's theorem, the fact behind the automatic derivation: at a nondegenerate covariance the derivative of the expectation exists and is the
expectation of the product of the derivatives. -/
theorem price_theorem (hf : IsNngpOf φ f) (d1 : ∀ x, HasDerivAt φ (φ' x) x) (d2 : ∀ x, HasDerivAt φ' (φ'' x) x)
    (t0 : Tame φ) (t1 : Tame φ') (t2 : Tame φ'') (P : Measure (ℝ × ℝ)) (q11 q12 q22 : ℝ) (hP : GaussPair P q11 q12 q22) (hs : q12 ^ 2 < q11 * q22) :
    HasDerivAt (fun c => f c q11 q22) (∫ x, φ' x.1 * φ' x.2 ∂P) q12 := by
  have p1 : 0 < q11 := by
    rcases hP.nonneg1.eq_or_lt with h | h
    · rw [← h, zero_mul] at hs
      nlinarith [sq_nonneg q12]
    · exact h
  have m := t1.meas
  have := deriv_inside hf d1 d2 t0 t1 t2 p1 hs
  rwa [← integral_chol (f := fun x => φ' x.1 * φ' x.2) (by fun_prop), ← hP.unique (chol_pair p1 hs.le)] at this

/-- Without `nngp_fn` the kernel function raises. -/
theorem missing_nngp_fn (d : Option (ℝ → ℝ → ℝ → ℝ)) (k : Kernel ℝ) : elementwiseKernelFn none d k = .error .notImplemented := rfl

/-! ### The example of the documentation, elementwise.py:1047-1058 -/

/-- `nngp_fn` of the documentation. -/
noncomputable def docNngp (cov12 var1 var2 : ℝ) : ℝ := Real.arcsin (2 * cov12 / Real.sqrt ((1 + 2 * var1) * (1 + 2 * var2))) * 2 / Real.pi

lemma doc_nngp : IsNngpOf erf docNngp := by
  intro P q11 q12 q22 hP
  obtain ⟨θ, t1, t2, t3, t4⟩ := hP.erf_erf
  rw [t4]
  have p1 : 0 < 1 + 2 * q11 := by linarith [hP.nonneg1]
  have p2 : 0 < 1 + 2 * q22 := by linarith [hP.nonneg2]
  have r1 := (Real.sqrt_pos.2 p1).ne'
  have r2 := (Real.sqrt_pos.2 p2).ne'
  have hpi := Real.pi_ne_zero
  unfold docNngp
  rw [Real.sqrt_mul p1.le, t3, mul_div_cancel_left₀ _ (mul_ne_zero r1 r2), ← Real.sin_pi_div_two_sub, Real.arcsin_sin (by linarith) (by linarith)]
  field_simp

lemma erf_second (x : ℝ) : HasDerivAt (fun x : ℝ => 2 / Real.sqrt Real.pi * Real.exp (-x ^ 2)) (-(2 * x * (2 / Real.sqrt Real.pi * Real.exp (-x ^ 2)))) x := by
  have h : HasDerivAt (fun x : ℝ => x ^ 2) (2 * x) x := by simpa using hasDerivAt_pow 2 x
  have := (h.neg.exp).const_mul (2 / Real.sqrt Real.pi)
  refine this.congr_deriv ?_
  simp only [Pi.neg_apply]
  ring

lemma erf_first_tame : Tame fun x : ℝ => 2 / Real.sqrt Real.pi * Real.exp (-x ^ 2) :=
  .of_bounded (by fun_prop) (2 / Real.sqrt Real.pi) fun x => by
    rw [abs_of_nonneg (by positivity)]
    exact mul_le_of_le_one_right (by positivity) (Real.exp_le_one_iff.2 (by nlinarith [sq_nonneg x]))

/-- The condition at full correlation holds: the argument of `arcsin` stays below one. -/
lemma doc_boundary (v1 v2 c : ℝ) (h1 : 0 < v1) (h2 : 0 < v2) (h : c ^ 2 = v1 * v2) : ContinuousAt (deriv fun c => docNngp c v1 v2) c := by
  have hR : 0 < (1 + 2 * v1) * (1 + 2 * v2) := by positivity
  have hr := Real.sqrt_pos.2 hR
  have hq := Real.sq_sqrt hR.le
  have hlt : (2 * c / Real.sqrt ((1 + 2 * v1) * (1 + 2 * v2))) ^ 2 < 1 := by
    rw [div_pow, hq, div_lt_one hR]
    nlinarith
  have hne1 : 2 * c / Real.sqrt ((1 + 2 * v1) * (1 + 2 * v2)) ≠ -1 := by
    intro h
    rw [h] at hlt
    norm_num at hlt
  have hne2 : 2 * c / Real.sqrt ((1 + 2 * v1) * (1 + 2 * v2)) ≠ 1 := by
    intro h
    rw [h] at hlt
    norm_num at hlt
  have hc : ContDiffAt ℝ 2 (fun c => docNngp c v1 v2) c := by
    unfold docNngp
    refine ContDiffAt.div_const (ContDiffAt.mul ?_ contDiffAt_const) _
    have := (Real.contDiffAt_arcsin hne1 hne2 (n := 2))
    have hl : ContDiffAt ℝ 2 (fun c => 2 * c / Real.sqrt ((1 + 2 * v1) * (1 + 2 * v2))) c := by fun_prop
    exact ContDiffAt.comp (g := Real.arcsin) (f := fun c => 2 * c / Real.sqrt ((1 + 2 * v1) * (1 + 2 * v2))) c this hl
  exact (hc.derivWithin (m := 1) (by norm_num)).continuousAt

/-- `Elementwise(erf, nngp_fn)` with the function of the documentation satisfies every condition and yields the kernels of the `erf` layer. -/
theorem documentation_example (k : Kernel ℝ) (L : Logical ℝ) (hk : k.Stores L) (hc : L.Closed) (hv : L.Vars (fun v => 0 < v)) (hg : k.isGaussian = true) :
    ∃ k' L', elementwiseKernelFn (some docNngp) none k = .ok k' ∧ k'.Stores L' ∧ AfterElementwise k k' ∧
      DualOf erf (fun x => 2 / Real.sqrt Real.pi * Real.exp (-x ^ 2)) L L' :=
  autodiff_exact doc_nngp (fun x => hasDerivAt_erf x) erf_second (.of_bounded continuous_erf.measurable 1 abs_erf_le) erf_first_tame
    ((((Tame.const 2).mul Tame.id).mul erf_first_tame).neg) doc_boundary k L hk hc hv hg

example (db ds rev : Bool) : ∃ k' L', elementwiseKernelFn (some docNngp) none { C42.exL.encode db ds rev with isGaussian := true } = .ok k' ∧ k'.Stores L' ∧
    DualOf erf (fun x => 2 / Real.sqrt Real.pi * Real.exp (-x ^ 2)) C42.exL L' := by
  obtain ⟨k', L', h1, h2, -, h3⟩ := documentation_example _ C42.exL (C42.exL_stores db ds rev) C42.exL_closed C42.exL_vars rfl
  exact ⟨k', L', h1, h2, h3⟩

end NT.C90
