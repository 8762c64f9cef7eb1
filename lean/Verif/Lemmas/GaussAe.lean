import Verif.Tac
import Verif.Lemmas.GaussCont
import Verif.Lemmas.Rows

/-!
# Expectations of functions with kinks
-/

namespace NT.Gauss
open MeasureTheory ProbabilityTheory Spec

lemma pair_fst {P : Measure (ℝ × ℝ)} {q11 q12 q22 : ℝ} (h : GaussPair P q11 q12 q22) : P.map Prod.fst = gaussianReal 0 q11.toNNReal := by
  have := h.gaussian
  have e := IsGaussian.map_eq_gaussianReal (μ := P) (ContinuousLinearMap.fst ℝ ℝ ℝ)
  have e1 : P[ContinuousLinearMap.fst ℝ ℝ ℝ] = 0 := h.mean1
  have e2 : Var[ContinuousLinearMap.fst ℝ ℝ ℝ; P] = q11 := by
    rw [variance_of_integral_eq_zero (by fun_prop) e1]
    exact h.var1
  rw [e1, e2] at e
  exact e

lemma pair_snd {P : Measure (ℝ × ℝ)} {q11 q12 q22 : ℝ} (h : GaussPair P q11 q12 q22) : P.map Prod.snd = gaussianReal 0 q22.toNNReal := by
  have := h.gaussian
  have e := IsGaussian.map_eq_gaussianReal (μ := P) (ContinuousLinearMap.snd ℝ ℝ ℝ)
  have e1 : P[ContinuousLinearMap.snd ℝ ℝ ℝ] = 0 := h.mean2
  have e2 : Var[ContinuousLinearMap.snd ℝ ℝ ℝ; P] = q22 := by
    rw [variance_of_integral_eq_zero (by fun_prop) e1]
    exact h.var2
  rw [e1, e2] at e
  exact e

lemma gaussian_null {v : ℝ} (hv : 0 < v) {D : Set ℝ} (hD : volume D = 0) : ∀ᵐ x ∂gaussianReal 0 v.toNNReal, x ∉ D := by
  have : gaussianReal 0 v.toNNReal ≪ volume := gaussianReal_absolutelyContinuous 0 (by simpa using hv)
  exact measure_eq_zero_iff_ae_notMem.1 (this hD)

lemma pair_null1 {P : Measure (ℝ × ℝ)} {q11 q12 q22 : ℝ} (h : GaussPair P q11 q12 q22) (hv : 0 < q11) {D : Set ℝ} (hD : volume D = 0) : ∀ᵐ x ∂P, x.1 ∉ D := by
  have := gaussian_null hv hD
  rw [← pair_fst h] at this
  exact ae_of_ae_map measurable_fst.aemeasurable this

lemma pair_null2 {P : Measure (ℝ × ℝ)} {q11 q12 q22 : ℝ} (h : GaussPair P q11 q12 q22) (hv : 0 < q22) {D : Set ℝ} (hD : volume D = 0) : ∀ᵐ x ∂P, x.2 ∉ D := by
  have := gaussian_null hv hD
  rw [← pair_snd h] at this
  exact ae_of_ae_map measurable_snd.aemeasurable this

/-- Expectations of bounded functions that are continuous almost everywhere are continuous where the variances are positive. -/
lemma E2_cont_ae {g h : ℝ → ℝ} {M M' : ℝ} (hg : Measurable g) (hh : Measurable h) (bg : ∀ x, |g x| ≤ M) (bh : ∀ x, |h x| ≤ M')
    (cg : volume {x | ¬ ContinuousAt g x} = 0) (ch : volume {x | ¬ ContinuousAt h x} = 0) {q : Sym} (hq : Psd q) (h1 : 0 < q.1) (h2 : 0 < q.2.2) :
    ContinuousWithinAt (E2 g h) {q | Psd q} q := by
  have hs := std2_pair.gaussian
  have hP := msqrt_pair hq
  have a1 : ∀ᵐ z ∂std2, ContinuousAt g (lin (msqrt q) z).1 := by
    filter_upwards [ae_of_ae_map (measurable_lin _).aemeasurable (pair_null1 hP h1 cg)] with z hz
    simpa using hz
  have a2 : ∀ᵐ z ∂std2, ContinuousAt h (lin (msqrt q) z).2 := by
    filter_upwards [ae_of_ae_map (measurable_lin _).aemeasurable (pair_null2 hP h2 ch)] with z hz
    simpa using hz
  have key : ContinuousAt (fun a => ∫ z, g (lin a z).1 * h (lin a z).2 ∂std2) (msqrt q) := by
    refine continuousAt_of_dominated (bound := fun _ => M * M') ?_ ?_ (integrable_const _) ?_
    · refine Filter.Eventually.of_forall fun a => Measurable.aestronglyMeasurable ?_
      have := measurable_lin a
      exact (hg.comp (measurable_fst.comp this)).mul (hh.comp (measurable_snd.comp this))
    · refine Filter.Eventually.of_forall fun a => Filter.Eventually.of_forall fun z => ?_
      rw [Real.norm_eq_abs, abs_mul]
      exact mul_le_mul (bg _) (bh _) (abs_nonneg _) ((abs_nonneg _).trans (bg 0))
    · filter_upwards [a1, a2] with z z1 z2
      have c1 : ContinuousAt (fun a : Sym => (lin a z).1) (msqrt q) := by unfold lin; fun_prop
      have c2 : ContinuousAt (fun a : Sym => (lin a z).2) (msqrt q) := by unfold lin; fun_prop
      exact (ContinuousAt.comp (f := fun a : Sym => (lin a z).1) z1 c1).mul (ContinuousAt.comp (f := fun a : Sym => (lin a z).2) z2 c2)
  exact key.comp_continuousWithinAt (msqrt_cont hq)

/-- The variance after a nonlinearity that is not zero is positive. -/
lemma E2_pos {φ : ℝ → ℝ} (h : Tame φ) (hφ : volume {x | φ x ≠ 0} ≠ 0) {v : ℝ} (hv : 0 < v) : 0 < E2 φ φ (v, v, v) := by
  have hP : Psd (v, v, v) := ⟨hv.le, hv.le, by simp [pow_two]⟩
  have hp := msqrt_pair hP
  have m := hp.map_pair 1 0 1 0
  have hm : Measurable fun x : ℝ × ℝ => φ x.1 * φ x.2 := (h.meas.comp measurable_fst).mul (h.meas.comp measurable_snd)
  set P := std2.map (lin (msqrt (v, v, v))) with hPd
  have hG := hp.gaussian
  have e1 : E2 φ φ (v, v, v) = ∫ x, φ x.1 * φ x.1 ∂P := by
    have := E2_eq m h.meas h.meas
    rw [integral_map (by fun_prop) hm.aestronglyMeasurable] at this
    simp only [one_mul, zero_mul, add_zero] at this
    rw [this]
    congr 2 <;> simp
  rw [e1]
  have i1 : Integrable (fun x : ℝ × ℝ => φ x.1 * φ x.1) P := by
    have := (h.mul h).integrable (P := P) (Tame.const 1)
    simpa using this
  rcases (integral_nonneg (μ := P) (f := fun x : ℝ × ℝ => φ x.1 * φ x.1) fun x => mul_self_nonneg _).lt_or_eq with h0 | h0
  · exact h0
  · exfalso
    have := (integral_eq_zero_iff_of_nonneg (fun x : ℝ × ℝ => mul_self_nonneg (φ x.1)) i1).1 h0.symm
    have h3 : ∀ᵐ x ∂P, φ x.1 = 0 := by
      filter_upwards [this] with x hx
      exact mul_self_eq_zero.1 hx
    have h4 : ∀ᵐ x ∂P.map Prod.fst, φ x = 0 :=
      (ae_map_iff measurable_fst.aemeasurable (h.meas (measurableSet_singleton 0))).2 h3
    rw [pair_fst hp] at h4
    have h5 : ∀ᵐ x, φ x = 0 := (gaussianReal_absolutelyContinuous' 0 (v := v.toNNReal) (by simpa using hv)).ae_le h4
    exact hφ h5

/-- An output that is not almost surely zero avoids null sets. -/
lemma Rows.null {Ω ο κ : Type} [MeasurableSpace Ω] [Fintype ο] [Fintype κ] {ν : Measure Ω} {v : κ → ℝ} {R : ο → κ → Ω → ℝ} (h : Rows ν v R) (o : ο) (a : κ → ℝ)
    (ha : 0 < ∑ k, v k * (a k * a k)) {D : Set ℝ} (hD : volume D = 0) : ∀ᵐ ω ∂ν, rowOut R o a ω ∉ D :=
  ae_of_ae_map (f := fun ω => (rowOut R o a ω, rowOut R o a ω)) ((h.measurable_out o a).prodMk (h.measurable_out o a)).aemeasurable
    (pair_null1 (h.pair o a a) ha hD)

end NT.Gauss
