import Verif.Lemmas.Elementwise
import Verif.Lemmas.GaussExp

/-!
# C42: the `Exp` layer computes the Gaussian expectations
-/

namespace NT.C42
open NT Arr Kernel Spec MeasureTheory

lemma exp_exact (b : ℝ) : (expDual b).Exact (fun _ => True) (fun x => Real.exp (b * x)) (fun x => b * Real.exp (b * x)) where
  diag v _ := by
    simp only [expDual, id]
    congr 1
    ring
  nngp {P q11 q12 q22} hP _ _ := by
    have := hP.exp b b
    simp only [expDual, id, ← Real.exp_add]
    rw [this]
    congr 1
    ring
  dot {P q11 q12 q22} hP _ _ := by
    have := hP.exp b b
    have e : (fun x : ℝ × ℝ => b * Real.exp (b * x.1) * (b * Real.exp (b * x.2))) =
        fun x => b ^ 2 * Real.exp (b * x.1 + b * x.2) := by
      funext x
      rw [Real.exp_add]
      ring
    rw [e, integral_const_mul, this]
    simp only [expDual, id]
    congr 2
    ring

/-- The kernel function of `Exp(a, b)` succeeds on a Gaussian kernel in every layout; the result stores `E[φ(u) φ(v)]` and the
tangent kernel times `E[φ'(u) φ'(v)]`, `φ(x) = a exp(b x)`. -/
theorem kernel_exact (a b : ℝ) (k : Kernel ℝ) (L : Logical ℝ) (hk : k.Stores L) (hc : L.Closed) (hg : k.isGaussian = true) :
    ∃ k' L', expKernelFn a b k = .ok k' ∧ k'.Stores L' ∧ AfterElementwise k k' ∧
      DualOf (expFn a b) (deriv (expFn a b)) L L' := by
  have hv : L.Vars (fun _ => True) := ⟨fun _ _ _ _ => trivial, fun _ _ _ _ _ _ => trivial⟩
  obtain ⟨k0, h0, h1, h2, h3, h4, h5, -⟩ := (expDual b).kernelFn_ok hk hc hv (exp_exact b).diag
  obtain ⟨k', g1, g2, g3⟩ := elementwise_ok (f := fun k => ((expDual b).kernelFn k).map (·.mul a)) (k0 := k0.mul a) hg
    (by simp [h0, Except.map]) (C24.stores_map k0 _ h1 _ _) h2 h3 h4 h5
  refine ⟨k', _, g1, g2, g3, ?_⟩
  have := dualOf_scale ((exp_exact b).dualOf hc hv) a
  have e : deriv (expFn a b) = fun x => a * (b * Real.exp (b * x)) := by
    funext x
    have : HasDerivAt (expFn a b) (a * (Real.exp (b * x) * (b * 1))) x :=
      ((((hasDerivAt_id x).const_mul b).exp).const_mul a)
    rw [this.deriv]
    ring
  rw [e]
  exact this

/-- A kernel that is not Gaussian is rejected. -/
theorem not_gaussian (a b : ℝ) (k : Kernel ℝ) (hg : k.isGaussian = false) : expKernelFn a b k = .error .valueError := by
  simp [expKernelFn, elementwise, hg]

/-! ### A concrete case -/

/-- Two inputs with two positions, and three others. -/
noncomputable def exL : Logical ℝ where
  n1 := 2
  n2 := 3
  S1 := [2]
  S2 := [2]
  k12 b p q := 1 / (1 + b.getD 0 0 + b.getD 1 0 + p.getD 0 0 + q.getD 0 0)
  k11 b p q := if b.getD 0 0 = b.getD 1 0 ∧ p = q then 2 else 1 / 2
  k22 := some fun b p q => if b.getD 0 0 = b.getD 1 0 ∧ p = q then 1 else 1 / 3
  ntk := some fun _ _ _ => 1

lemma exL_closed : exL.Closed := by simp [Logical.Closed, exL]

lemma exL_stores (db ds rev : Bool) : ({ exL.encode db ds rev with isGaussian := true } : Kernel ℝ).Stores exL := by
  have hst := exL.encode_stores db ds rev (fun _ => rfl) rfl
  exact ⟨hst.nngp, hst.cov1, hst.cov2, hst.ntk⟩

lemma exL_vars : exL.Vars (fun v => 0 < v) := by
  refine ⟨fun i p _ _ => ?_, fun F hF i p _ _ => ?_⟩
  · simp [exL]
  · obtain rfl := Option.some.inj hF
    simp

example (db ds rev : Bool) : ∃ k' L', expKernelFn 2 3 { exL.encode db ds rev with isGaussian := true } = .ok k' ∧ k'.Stores L' ∧
    DualOf (expFn 2 3) (deriv (expFn 2 3)) exL L' := by
  obtain ⟨k', L', h1, h2, -, h3⟩ := kernel_exact 2 3 _ exL (exL_stores db ds rev) exL_closed rfl
  exact ⟨k', L', h1, h2, h3⟩

/-- The Gaussian pairs of the case exist. -/
lemma exL_pairs (i j : ℕ) (p q : List ℕ) :
    ∃ P, GaussPair P (exL.k11 [i, i] p p) (exL.k12 [i, j] p q) (exL.second [j, j] q q) := by
  refine GaussPair.exist _ _ _ ?_ ?_ ?_
  · simp [exL]
  · simp [exL, Logical.second]
  · simp only [exL, Logical.second, Option.getD_some, and_self, if_true, List.getD_cons_zero, List.getD_cons_succ]
    have h : (1 : ℝ) ≤ 1 + i + j + p.getD 0 0 + q.getD 0 0 := by
      have : (0 : ℝ) ≤ (i : ℝ) + j + p.getD 0 0 + q.getD 0 0 := by positivity
      linarith
    have h2 : 1 / (1 + (i : ℝ) + j + p.getD 0 0 + q.getD 0 0) ≤ 1 := by
      rw [div_le_one (by linarith)]
      exact h
    have h3 : 0 ≤ 1 / (1 + (i : ℝ) + j + p.getD 0 0 + q.getD 0 0) := by positivity
    nlinarith

example (i j : ℕ) (p q : List ℕ) :
    ∃ P, GaussPair P (exL.k11 [i, i] p p) (exL.k12 [i, j] p q) (exL.second [j, j] q q) := exL_pairs i j p q

end NT.C42
