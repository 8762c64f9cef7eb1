import Verif.Tac
import Verif.Lemmas.GaussCont
import Mathlib.Probability.Moments.Variance
import Mathlib.Probability.Distributions.Gaussian.HasGaussianLaw.Independence

/-!
# Random linear functions with independent Gaussian coefficients

`R o k` is coefficient `k` of output `o`: all coefficients are independent, and the variance depends on `k` only.  Averages over the outputs concentrate.
-/

set_option linter.unusedSectionVars false

namespace NT.Gauss
open MeasureTheory ProbabilityTheory Spec

variable {Ω ο κ : Type} [MeasurableSpace Ω] [Fintype ο] [Fintype κ]

/-- Independent Gaussian coefficients with mean 0. -/
structure Rows (ν : Measure Ω) (v : κ → ℝ) (R : ο → κ → Ω → ℝ) : Prop where
  gauss : HasGaussianLaw (fun ω o k => R o k ω) ν
  meas : ∀ o k, Measurable (R o k)
  mean : ∀ o k, ∫ ω, R o k ω ∂ν = 0
  var : ∀ o k, ∫ ω, R o k ω * R o k ω ∂ν = v k
  cov : ∀ o k o' k', (o, k) ≠ (o', k') → ∫ ω, R o k ω * R o' k' ω ∂ν = 0

/-- Output `o` for the inputs `a`. -/
def rowOut (R : ο → κ → Ω → ℝ) (o : ο) (a : κ → ℝ) (ω : Ω) : ℝ := ∑ k, R o k ω * a k

/-- The covariance matrix of two outputs for the inputs `a`, `b`. -/
def rowCov (v a b : κ → ℝ) : Sym := (∑ k, v k * (a k * a k), ∑ k, v k * (a k * b k), ∑ k, v k * (b k * b k))

namespace Rows

variable {ν : Measure Ω} {v : κ → ℝ} {R : ο → κ → Ω → ℝ}

lemma prob (h : Rows ν v R) : IsProbabilityMeasure ν := h.gauss.isProbabilityMeasure

lemma memLp (h : Rows ν v R) (o : ο) (k : κ) : MemLp (R o k) 2 ν := ((h.gauss.eval o).eval k).memLp_two

lemma integrable_mul (h : Rows ν v R) (o o' : ο) (k k' : κ) : Integrable (fun ω => R o k ω * R o' k' ω) ν :=
  (h.memLp o k).integrable_mul (h.memLp o' k')

lemma measurable_out (h : Rows ν v R) (o : ο) (a : κ → ℝ) : Measurable (rowOut R o a) :=
  Finset.measurable_sum _ fun k _ => (h.meas o k).mul_const _

lemma integral_mul (h : Rows ν v R) (o : ο) (a b : κ → ℝ) : ∫ ω, rowOut R o a ω * rowOut R o b ω ∂ν = ∑ k, v k * (a k * b k) := by
  classical
  have e : ∀ ω, rowOut R o a ω * rowOut R o b ω = ∑ k, ∑ l, (a k * b l) * (R o k ω * R o l ω) := by
    intro ω
    rw [rowOut, rowOut, Finset.sum_mul_sum]
    exact Finset.sum_congr rfl fun k _ => Finset.sum_congr rfl fun l _ => by ring
  simp only [e]
  rw [integral_finsetSum _ fun k _ => integrable_finsetSum _ fun l _ => (h.integrable_mul o o k l).const_mul _]
  refine Finset.sum_congr rfl fun k _ => ?_
  rw [integral_finsetSum _ fun l _ => (h.integrable_mul o o k l).const_mul _, Finset.sum_eq_single k]
  · rw [integral_const_mul, h.var, mul_comm]
  · intro l _ hl
    rw [integral_const_mul, h.cov o k o l (by simpa using fun e => hl e.symm), mul_zero]
  · simp

lemma integral_out (h : Rows ν v R) (o : ο) (a : κ → ℝ) : ∫ ω, rowOut R o a ω ∂ν = 0 := by
  have := h.prob
  unfold rowOut
  rw [integral_finsetSum _ fun k _ => ((h.memLp o k).integrable (by norm_num)).mul_const _]
  refine Finset.sum_eq_zero fun k _ => ?_
  rw [integral_mul_const, h.mean, zero_mul]

/-- The pair of outputs for two inputs. -/
lemma pair (h : Rows ν v R) (o : ο) (a b : κ → ℝ) :
    GaussPair (ν.map fun ω => (rowOut R o a ω, rowOut R o b ω)) (rowCov v a b).1 (rowCov v a b).2.1 (rowCov v a b).2.2 := by
  have hm : Measurable fun ω => (rowOut R o a ω, rowOut R o b ω) := (h.measurable_out o a).prodMk (h.measurable_out o b)
  have hi : ∀ {F : ℝ × ℝ → ℝ}, Measurable F → ∫ x, F x ∂(ν.map fun ω => (rowOut R o a ω, rowOut R o b ω)) = ∫ ω, F (rowOut R o a ω, rowOut R o b ω) ∂ν :=
    fun hF => integral_map hm.aemeasurable hF.aestronglyMeasurable
  refine ⟨?_, ?_, ?_, ?_, ?_, ?_⟩
  · let L : (κ → ℝ) →L[ℝ] ℝ × ℝ :=
      (∑ k, a k • ContinuousLinearMap.proj (R := ℝ) (φ := fun _ : κ => ℝ) k).prod (∑ k, b k • ContinuousLinearMap.proj (R := ℝ) (φ := fun _ : κ => ℝ) k)
    have := ((h.gauss.eval o).map_fun L).isGaussian_map
    refine Eq.mp (congrArg (fun F => IsGaussian (ν.map F)) (funext fun ω => ?_)) this
    simp [L, rowOut, mul_comm]
  · rw [hi measurable_fst]; exact h.integral_out o a
  · rw [hi measurable_snd]; exact h.integral_out o b
  · rw [hi (by fun_prop)]
    simp only [pow_two]
    exact h.integral_mul o a a
  · rw [hi (by fun_prop)]; exact h.integral_mul o a b
  · rw [hi (by fun_prop)]
    simp only [pow_two]
    exact h.integral_mul o b b

lemma psd (h : Rows ν v R) (o : ο) (a b : κ → ℝ) : Psd (rowCov v a b) := psd_of_pair (h.pair o a b)

/-- Expectations of functions of an output. -/
lemma integral_E2 (h : Rows ν v R) (o : ο) (a b : κ → ℝ) {g g' : ℝ → ℝ} (hg : Measurable g) (hg' : Measurable g') :
    ∫ ω, g (rowOut R o a ω) * g' (rowOut R o b ω) ∂ν = E2 g g' (rowCov v a b) := by
  rw [← show E2 g g' ((rowCov v a b).1, (rowCov v a b).2.1, (rowCov v a b).2.2) = _ from rfl, ← E2_eq (h.pair o a b) hg hg']
  exact (integral_map (φ := fun ω => (rowOut R o a ω, rowOut R o b ω)) (f := fun x => g x.1 * g' x.2)
    ((h.measurable_out o a).prodMk (h.measurable_out o b)).aemeasurable (Measurable.aestronglyMeasurable (by fun_prop))).symm

/-- The outputs are independent of each other. -/
lemma indep (h : Rows ν v R) : iIndepFun (fun o ω k => R o k ω) ν := by
  refine h.gauss.iIndepFun_of_covariance_eval (X := R) fun o o' ho k k' => ?_
  have := h.prob
  rw [covariance_eq_sub (h.memLp o k) (h.memLp o' k'), h.mean, zero_mul, sub_zero]
  exact h.cov o k o' k' (by simp [ho])

lemma indep_out (h : Rows ν v R) (a b : κ → ℝ) {F : ℝ × ℝ → ℝ} (hF : Measurable F) :
    iIndepFun (fun o ω => F (rowOut R o a ω, rowOut R o b ω)) ν :=
  h.indep.comp (fun _ r => F (∑ k, r k * a k, ∑ k, r k * b k)) fun _ => by fun_prop

lemma memLp_out (h : Rows ν v R) (o : ο) (a b : κ → ℝ) {g g' : ℝ → ℝ} (hg : Tame g) (hg' : Tame g') :
    MemLp (fun ω => g (rowOut R o a ω) * g' (rowOut R o b ω)) 2 ν := by
  have hm : Measurable fun ω => (rowOut R o a ω, rowOut R o b ω) := (h.measurable_out o a).prodMk (h.measurable_out o b)
  have := (h.pair o a b).gaussian
  have hi := (hg.mul hg).integrable (P := ν.map fun ω => (rowOut R o a ω, rowOut R o b ω)) (hg'.mul hg')
  rw [integrable_map_measure hi.1 hm.aemeasurable] at hi
  have hY : Measurable fun ω => g (rowOut R o a ω) * g' (rowOut R o b ω) := (hg.meas.comp (h.measurable_out o a)).mul (hg'.meas.comp (h.measurable_out o b))
  rw [memLp_two_iff_integrable_sq hY.aestronglyMeasurable]
  refine hi.congr (.of_forall fun ω => ?_)
  show _ = _ ^ 2
  simp only [Function.comp]
  ring

/-- Averages over the outputs deviate little from the expectation. -/
lemma chebyshev (h : Rows ν v R) (o : ο) (a b : κ → ℝ) {g g' : ℝ → ℝ} (hg : Tame g) (hg' : Tame g') {ε : ℝ} (hε : 0 < ε) :
    ν {ω | ε ≤ |(∑ o, g (rowOut R o a ω) * g' (rowOut R o b ω)) / Fintype.card ο - E2 g g' (rowCov v a b)|} ≤
      ENNReal.ofReal (E2 (fun x => g x * g x) (fun x => g' x * g' x) (rowCov v a b) / (Fintype.card ο * ε ^ 2)) := by
  classical
  have := h.prob
  set Y : ο → Ω → ℝ := fun o ω => g (rowOut R o a ω) * g' (rowOut R o b ω) with hY
  have hL : ∀ o, MemLp (Y o) 2 ν := fun o => h.memLp_out o a b hg hg'
  have hn : (0 : ℝ) < Fintype.card ο := by
    have : Nonempty ο := ⟨o⟩
    exact_mod_cast Fintype.card_pos
  have hS : MemLp (∑ o, Y o) 2 ν := memLp_finsetSum' _ fun o _ => hL o
  have hE : ν[∑ o, Y o] = Fintype.card ο * E2 g g' (rowCov v a b) := by
    simp only [Finset.sum_apply]
    rw [integral_finsetSum _ fun o _ => (hL o).integrable (by norm_num)]
    simp only [hY, h.integral_E2 _ a b hg.meas hg'.meas]
    simp
  have hV : variance (∑ o, Y o) ν ≤ Fintype.card ο * E2 (fun x => g x * g x) (fun x => g' x * g' x) (rowCov v a b) := by
    rw [IndepFun.variance_sum (fun o _ => hL o) fun o _ o' _ hne =>
      (h.indep_out a b (F := fun x => g x.1 * g' x.2) ((hg.meas.comp measurable_fst).mul (hg'.meas.comp measurable_snd))).indepFun hne]
    have : ∀ o ∈ Finset.univ, variance (Y o) ν ≤ E2 (fun x => g x * g x) (fun x => g' x * g' x) (rowCov v a b) := by
      intro o _
      refine (variance_le_expectation_sq (hL o).1).trans (le_of_eq ?_)
      rw [← h.integral_E2 o a b (g := fun x => g x * g x) (g' := fun x => g' x * g' x) (hg.meas.mul hg.meas) (hg'.meas.mul hg'.meas)]
      refine integral_congr_ae (.of_forall fun ω => ?_)
      simp only [hY, Pi.pow_apply]
      ring
    refine (Finset.sum_le_sum this).trans ?_
    simp
  have key := meas_ge_le_variance_div_sq hS (c := Fintype.card ο * ε) (by positivity)
  rw [hE] at key
  refine le_trans (measure_mono fun ω hω => ?_) (key.trans (ENNReal.ofReal_le_ofReal ?_))
  · simp only [Set.mem_ofPred_eq, Finset.sum_apply] at hω ⊢
    have e : (∑ o, g (rowOut R o a ω) * g' (rowOut R o b ω)) / Fintype.card ο - E2 g g' (rowCov v a b) =
        (∑ o, Y o ω - Fintype.card ο * E2 g g' (rowCov v a b)) / Fintype.card ο := by
      rw [sub_div, mul_div_cancel_left₀ _ hn.ne']
    rw [e, abs_div, abs_of_pos hn, le_div_iff₀ hn] at hω
    linarith
  · rw [div_le_div_iff₀ (by positivity) (by positivity)]
    have := mul_le_mul_of_nonneg_right hV (by positivity : (0 : ℝ) ≤ Fintype.card ο * ε ^ 2)
    nlinarith

end Rows

end NT.Gauss
