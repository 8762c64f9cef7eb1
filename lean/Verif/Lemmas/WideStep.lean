import Verif.Tac
import Verif.Lemmas.Rows
import Mathlib.MeasureTheory.Measure.Prod

/-!
# One wide layer on top of a random network

If the covariances of the activations are close to `q` with high probability, then averages over the channels of a further wide layer are close to the
expectations for `q` with high probability.
-/

namespace NT.Gauss
open MeasureTheory ProbabilityTheory Spec

/-- The probability of an event is at most that of an event `B` of the first variable and the conditional probability outside of `B`. -/
lemma prod_bound {α β : Type} [MeasurableSpace α] [MeasurableSpace β] (μ : Measure α) (ν : Measure β) [IsProbabilityMeasure μ] [IsProbabilityMeasure ν]
    {S : Set (α × β)} (hS : MeasurableSet S) {B : Set α} (hB : MeasurableSet B) {δ : ENNReal} (h : ∀ x, x ∉ B → ν (Prod.mk x ⁻¹' S) ≤ δ) :
    (μ.prod ν) S ≤ μ B + δ := by
  rw [Measure.prod_apply hS]
  have : ∀ x, ν (Prod.mk x ⁻¹' S) ≤ B.indicator 1 x + δ := by
    intro x
    by_cases hx : x ∈ B
    · rw [Set.indicator_of_mem hx]
      exact prob_le_one.trans le_self_add
    · exact (h x hx).trans le_add_self
  refine (lintegral_mono this).trans ?_
  rw [lintegral_add_right _ measurable_const, lintegral_indicator_one hB, lintegral_const]
  simp

/-- Markov's inequality for the second factor: if the conditional expectation of a nonnegative function is at most `c` outside of `B`. -/
lemma prod_markov {α β : Type} [MeasurableSpace α] [MeasurableSpace β] (μ : Measure α) (ν : Measure β) [IsProbabilityMeasure μ] [IsProbabilityMeasure ν]
    {Y : α × β → ℝ} (hY : Measurable Y) (h0 : ∀ x, 0 ≤ Y x) {B : Set α} (hB : MeasurableSet B) {c ε : ℝ} (hε : 0 < ε)
    (hi : ∀ x, Integrable (fun y => Y (x, y)) ν) (h : ∀ x, x ∉ B → ∫ y, Y (x, y) ∂ν ≤ c) :
    (μ.prod ν) {x | ε ≤ Y x} ≤ μ B + ENNReal.ofReal (c / ε) := by
  refine prod_bound μ ν (measurableSet_le measurable_const hY) hB fun x hx => ?_
  have hm := mul_meas_ge_le_integral_of_nonneg (.of_forall fun y => h0 (x, y)) (hi x) ε
  have e : Prod.mk x ⁻¹' {x | ε ≤ Y x} = {y | ε ≤ Y (x, y)} := rfl
  rw [e, ← ENNReal.ofReal_toReal (measure_ne_top ν {y | ε ≤ Y (x, y)})]
  refine ENNReal.ofReal_le_ofReal ?_
  rw [le_div_iff₀ hε, mul_comm]
  exact hm.trans (h x hx)

/-- The event that a pair of covariances is not close is one of three. -/
lemma dist_event {α : Type} [MeasurableSpace α] (μ : Measure α) (T : α → Sym) (q : Sym) (η : ℝ) :
    μ {x | η ≤ dist (T x) q} ≤ μ {x | η ≤ |(T x).1 - q.1|} + (μ {x | η ≤ |(T x).2.1 - q.2.1|} + μ {x | η ≤ |(T x).2.2 - q.2.2|}) := by
  refine (measure_mono (t := {x | η ≤ |(T x).1 - q.1|} ∪ ({x | η ≤ |(T x).2.1 - q.2.1|} ∪ {x | η ≤ |(T x).2.2 - q.2.2|})) fun x hx => ?_).trans
    ((measure_union_le _ _).trans (add_le_add le_rfl (measure_union_le _ _)))
  simp only [Set.mem_ofPred_eq, Prod.dist_eq, le_max_iff, Real.dist_eq] at hx
  exact hx

lemma wide_step {g h : ℝ → ℝ} (cg : Continuous g) (ch : Continuous h) (tg : Tame g) (th : Tame h) {q : Sym} (hq : Psd q) {ε δ : ℝ} (hε : 0 < ε)
    (hδ : 0 < δ) : ∃ η > 0, ∃ n0 : ℕ, ∀ (E Ω ο κ : Type) [MeasurableSpace E] [MeasurableSpace Ω] [Fintype ο] [Fintype κ] (μ : Measure E)
      [IsProbabilityMeasure μ] (ν : Measure Ω) (v : κ → ℝ) (R : ο → κ → Ω → ℝ) (a b : E → κ → ℝ), Rows ν v R → Measurable a → Measurable b → 0 < Fintype.card ο →
      n0 ≤ Fintype.card ο → (μ.prod ν) {x | ε ≤ |(∑ o, g (rowOut R o (a x.1) x.2) * h (rowOut R o (b x.1) x.2)) / Fintype.card ο - E2 g h q|} ≤
        μ {θ | η ≤ dist (rowCov v (a θ) (b θ)) q} + ENNReal.ofReal δ := by
  have c1 := E2_cont cg ch tg th hq
  have c2 := E2_cont (cg.mul cg) (ch.mul ch) (tg.mul tg) (th.mul th) hq
  obtain ⟨η1, h1, k1⟩ := Metric.continuousWithinAt_iff.1 c1 (ε / 2) (by positivity)
  obtain ⟨η2, h2, k2⟩ := Metric.continuousWithinAt_iff.1 c2 1 one_pos
  set M := |E2 (fun x => g x * g x) (fun x => h x * h x) q| + 1 with hM
  obtain ⟨n0, hn0⟩ := exists_nat_ge (M / (δ * (ε / 2) ^ 2))
  refine ⟨min η1 η2, lt_min h1 h2, n0, fun E Ω ο κ _ _ _ _ μ _ ν v R a b hR ha hb hc hn => ?_⟩
  have := hR.prob
  have hr : ∀ (o : ο) (a : E → κ → ℝ), Measurable a → Measurable fun x : E × Ω => rowOut R o (a x.1) x.2 := fun o a ha =>
    Finset.measurable_sum _ fun k _ => ((hR.meas o k).comp measurable_snd).mul ((measurable_pi_apply k).comp (ha.comp measurable_fst))
  have hT : Measurable fun θ => rowCov v (a θ) (b θ) := by
    have p : ∀ (a b : E → κ → ℝ), Measurable a → Measurable b → Measurable fun θ => ∑ k, v k * (a θ k * b θ k) := fun a b ha hb =>
      Finset.measurable_sum _ fun k _ => ((((measurable_pi_apply k).comp ha).mul ((measurable_pi_apply k).comp hb)).const_mul _)
    exact (p a a ha ha).prodMk ((p a b ha hb).prodMk (p b b hb hb))
  refine prod_bound μ ν (measurableSet_le measurable_const ?_) (measurableSet_le measurable_const (hT.dist measurable_const)) fun θ hθ => ?_
  · refine Measurable.abs (Measurable.sub (Measurable.div_const (Finset.measurable_sum _ fun o _ => ?_) _) measurable_const)
    exact (cg.measurable.comp (hr o a ha)).mul (ch.measurable.comp (hr o b hb))
  · obtain ⟨o⟩ : Nonempty ο := Fintype.card_pos_iff.1 hc
    have hc' : (0 : ℝ) < Fintype.card ο := by exact_mod_cast hc
    simp only [Set.mem_ofPred_eq, not_le] at hθ
    have d1 := k1 (hR.psd o (a θ) (b θ)) (hθ.trans_le (min_le_left _ _))
    have d2 := k2 (hR.psd o (a θ) (b θ)) (hθ.trans_le (min_le_right _ _))
    rw [Real.dist_eq] at d1 d2
    refine le_trans (measure_mono fun ω hω => ?_) ((hR.chebyshev o (a θ) (b θ) tg th (half_pos hε)).trans (ENNReal.ofReal_le_ofReal ?_))
    · simp only [Set.mem_preimage, Set.mem_ofPred_eq] at hω ⊢
      have := abs_sub_le ((∑ o, g (rowOut R o (a θ) ω) * h (rowOut R o (b θ) ω)) / Fintype.card ο) (E2 g h (rowCov v (a θ) (b θ))) (E2 g h q)
      linarith
    · have hle : E2 (fun x => g x * g x) (fun x => h x * h x) (rowCov v (a θ) (b θ)) ≤ M := by
        have := abs_lt.1 d2
        have := le_abs_self (E2 (fun x => g x * g x) (fun x => h x * h x) q)
        have e : ∀ q, E2 (g * g) (h * h) q = E2 (fun x => g x * g x) (fun x => h x * h x) q := fun _ => rfl
        simp only [e] at *
        linarith
      rw [div_le_iff₀ (by positivity)]
      refine hle.trans ?_
      rw [div_le_iff₀ (by positivity)] at hn0
      have : (n0 : ℝ) ≤ Fintype.card ο := by exact_mod_cast hn
      calc M ≤ n0 * (δ * (ε / 2) ^ 2) := hn0
        _ ≤ Fintype.card ο * (δ * (ε / 2) ^ 2) := mul_le_mul_of_nonneg_right this (by positivity)
        _ = _ := by ring

end NT.Gauss
