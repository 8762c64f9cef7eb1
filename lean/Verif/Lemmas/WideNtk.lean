import Verif.Tac
import Verif.Lemmas.WideStep
import Verif.Lemmas.Isserlis
import Mathlib.Algebra.Order.Chebyshev

/-!
# The tangent kernel of one wide layer on top of a random network

Given the parameters of the previous layers, the tangent kernel between the outputs `o` and `o'` of a layer is a bilinear form of the coefficients of the
layer (with the tangent kernels `A` of the previous layers), plus the covariance of the inputs if `o = o'`.
-/

set_option linter.unusedSectionVars false

namespace NT.Gauss
open MeasureTheory ProbabilityTheory Spec

variable {Ω ο κ : Type} [MeasurableSpace Ω] [Fintype ο] [Fintype κ]

namespace Rows

variable {ν : Measure Ω} {v : κ → ℝ} {R : ο → κ → Ω → ℝ}

/-- The mean square deviation of averages over the outputs, for bounded functions. -/
lemma mean_sq (h : Rows ν v R) (a b : κ → ℝ) {g g' : ℝ → ℝ} (hg : Measurable g) (hg' : Measurable g') {M : ℝ} (bg : ∀ x, |g x| ≤ M) (bg' : ∀ x, |g' x| ≤ M)
    (hn : 0 < Fintype.card ο) :
    Integrable (fun ω => ((∑ o, g (rowOut R o a ω) * g' (rowOut R o b ω)) / Fintype.card ο - E2 g g' (rowCov v a b)) ^ 2) ν ∧
    ∫ ω, ((∑ o, g (rowOut R o a ω) * g' (rowOut R o b ω)) / Fintype.card ο - E2 g g' (rowCov v a b)) ^ 2 ∂ν ≤ M ^ 4 / Fintype.card ο := by
  classical
  have := h.prob
  have hM : 0 ≤ M := (abs_nonneg _).trans (bg 0)
  have tg := Tame.of_bounded hg M bg
  have tg' := Tame.of_bounded hg' M bg'
  set Y : ο → Ω → ℝ := fun o ω => g (rowOut R o a ω) * g' (rowOut R o b ω) with hY
  have hL : ∀ o, MemLp (Y o) 2 ν := fun o => h.memLp_out o a b tg tg'
  have hn' : (0 : ℝ) < Fintype.card ο := by exact_mod_cast hn
  have hS : MemLp (∑ o, Y o) 2 ν := memLp_finsetSum' _ fun o _ => hL o
  have hE : ν[∑ o, Y o] = Fintype.card ο * E2 g g' (rowCov v a b) := by
    simp only [Finset.sum_apply]
    rw [integral_finsetSum _ fun o _ => (hL o).integrable (by norm_num)]
    simp only [hY, h.integral_E2 _ a b hg hg']
    simp
  have hV : variance (∑ o, Y o) ν ≤ Fintype.card ο * M ^ 4 := by
    rw [IndepFun.variance_sum (fun o _ => hL o) fun o _ o' _ hne =>
      (h.indep_out a b (F := fun x => g x.1 * g' x.2) ((hg.comp measurable_fst).mul (hg'.comp measurable_snd))).indepFun hne]
    have : ∀ o ∈ Finset.univ, variance (Y o) ν ≤ M ^ 4 := by
      intro o _
      refine (variance_le_expectation_sq (hL o).1).trans ?_
      have hle : ∀ ω, (Y o ^ 2) ω ≤ M ^ 4 := by
        intro ω
        have h1 : |Y o ω| ≤ M * M := by
          simp only [hY, abs_mul]
          exact mul_le_mul (bg _) (bg' _) (abs_nonneg _) hM
        rw [Pi.pow_apply, ← sq_abs]
        calc |Y o ω| ^ 2 ≤ (M * M) ^ 2 := pow_le_pow_left₀ (abs_nonneg _) h1 2
          _ = M ^ 4 := by ring
      refine (integral_mono_of_nonneg (.of_forall fun ω => sq_nonneg _) (integrable_const (M ^ 4)) (.of_forall hle)).trans ?_
      simp
    refine (Finset.sum_le_sum this).trans ?_
    simp
  have e : ∀ ω, ((∑ o, g (rowOut R o a ω) * g' (rowOut R o b ω)) / Fintype.card ο - E2 g g' (rowCov v a b)) ^ 2 =
      (1 / (Fintype.card ο : ℝ) ^ 2) * ((∑ o, Y o) ω - ν[∑ o, Y o]) ^ 2 := by
    intro ω
    rw [hE, Finset.sum_apply]
    field_simp
    rfl
  simp only [e]
  have hi : Integrable (fun ω => ((∑ o, Y o) ω - ν[∑ o, Y o]) ^ 2) ν := (hS.sub (memLp_const _)).integrable_sq
  refine ⟨hi.const_mul _, ?_⟩
  rw [integral_const_mul, ← variance_eq_integral hS.1.aemeasurable]
  calc (1 / (Fintype.card ο : ℝ) ^ 2) * variance (∑ o, Y o) ν ≤ (1 / (Fintype.card ο : ℝ) ^ 2) * (Fintype.card ο * M ^ 4) :=
        mul_le_mul_of_nonneg_left hV (by positivity)
    _ = _ := by field_simp

end Rows

variable [DecidableEq ο]

/-- The tangent kernel between outputs `o` and `o'`. -/
def ntkOut (R : ο → κ → Ω → ℝ) (c : ℝ) (A : κ → κ → ℝ) (o o' : ο) (ω : Ω) : ℝ := quad R o o' A ω + if o = o' then c else 0

/-- The tangent kernel after a nonlinearity with derivative `g`. -/
def ntkAct (g : ℝ → ℝ) (R : ο → κ → Ω → ℝ) (a b : κ → ℝ) (c : ℝ) (A : κ → κ → ℝ) (o o' : ο) (ω : Ω) : ℝ :=
  g (rowOut R o a ω) * g (rowOut R o' b ω) * ntkOut R c A o o' ω

namespace Rows

variable {ν : Measure Ω} {v : κ → ℝ} {R : ο → κ → Ω → ℝ}

/-- The mean square deviation of an entry of the tangent kernel. -/
lemma ntkOut_sq (h : Rows ν v R) (c : ℝ) (A : κ → κ → ℝ) (o o' : ο) (τ : ℝ) :
    Integrable (fun ω => (ntkOut R c A o o' ω - if o = o' then τ else 0) ^ 2) ν ∧
    ∫ ω, (ntkOut R c A o o' ω - if o = o' then τ else 0) ^ 2 ∂ν ≤ 4 * frob v A + 2 * (if o = o' then wtr v A + c - τ else 0) ^ 2 := by
  have := h.prob
  have q := h.quad_sq o o' A
  have qi := h.integral_quad o o' A
  have hi : Integrable (fun ω => (ntkOut R c A o o' ω - if o = o' then τ else 0) ^ 2) ν := by
    have e : ∀ ω, (ntkOut R c A o o' ω - if o = o' then τ else 0) ^ 2 = (quad R o o' A ω - if o = o' then wtr v A else 0) ^ 2 +
        (2 * (if o = o' then wtr v A + c - τ else 0) * (quad R o o' A ω - if o = o' then wtr v A else 0) +
          (if o = o' then wtr v A + c - τ else 0) ^ 2) := by
      intro ω
      unfold ntkOut
      split <;> ring
    simp only [e]
    exact q.1.add (((qi.1.sub (integrable_const _)).const_mul _).add (integrable_const _))
  refine ⟨hi, ?_⟩
  have hle : ∀ ω, (ntkOut R c A o o' ω - if o = o' then τ else 0) ^ 2 ≤ 2 * (quad R o o' A ω - if o = o' then wtr v A else 0) ^ 2 +
      2 * (if o = o' then wtr v A + c - τ else 0) ^ 2 := by
    intro ω
    unfold ntkOut
    split <;> nlinarith [sq_nonneg (quad R o o' A ω - wtr v A - (wtr v A + c - τ)), sq_nonneg (quad R o o' A ω)]
  have hi2 : Integrable (fun ω => 2 * (quad R o o' A ω - if o = o' then wtr v A else 0) ^ 2) ν := q.1.const_mul _
  refine (integral_mono hi (hi2.add (integrable_const _)) hle).trans ?_
  have := integral_add hi2 (integrable_const (2 * (if o = o' then wtr v A + c - τ else 0) ^ 2))
  refine (le_of_eq this).trans ?_
  rw [integral_const_mul, integral_const, probReal_univ, one_smul]
  linarith [q.2]

end Rows

lemma measurable_quad {E : Type} [MeasurableSpace E] {ν : Measure Ω} {v : κ → ℝ} {R : ο → κ → Ω → ℝ} (hR : Rows ν v R) (A : E → κ → κ → ℝ)
    (hA : ∀ k l, Measurable fun θ => A θ k l) (o o' : ο) : Measurable fun x : E × Ω => quad R o o' (A x.1) x.2 :=
  Finset.measurable_sum _ fun k _ => Finset.measurable_sum _ fun l _ =>
    (((hR.meas o k).comp measurable_snd).mul ((hR.meas o' l).comp measurable_snd)).mul ((hA k l).comp measurable_fst)

lemma measurable_dot {E : Type} [MeasurableSpace E] {v : κ → ℝ} {a b : E → κ → ℝ} (ha : Measurable a) (hb : Measurable b) :
    Measurable fun θ => Rows.dot v (a θ) (b θ) :=
  Finset.measurable_sum _ fun k _ => (((measurable_pi_apply k).comp ha).mul ((measurable_pi_apply k).comp hb)).const_mul _

lemma measurable_wtr {E : Type} [MeasurableSpace E] {v : κ → ℝ} {A : E → κ → κ → ℝ} (hA : ∀ k l, Measurable fun θ => A θ k l) :
    Measurable fun θ => wtr v (A θ) := Finset.measurable_sum _ fun k _ => (hA k k).const_mul _

lemma measurable_frob {E : Type} [MeasurableSpace E] {v : κ → ℝ} {A : E → κ → κ → ℝ} (hA : ∀ k l, Measurable fun θ => A θ k l) :
    Measurable fun θ => frob v (A θ) := Finset.measurable_sum _ fun k _ => Finset.measurable_sum _ fun l _ => ((hA k l).pow_const 2).const_mul _

lemma measurable_ntkOut {E : Type} [MeasurableSpace E] {ν : Measure Ω} {v : κ → ℝ} {R : ο → κ → Ω → ℝ} (hR : Rows ν v R) {c : E → ℝ} {A : E → κ → κ → ℝ}
    (hc0 : Measurable c) (hA : ∀ k l, Measurable fun θ => A θ k l) (o o' : ο) :
    Measurable fun x : E × Ω => ntkOut R (c x.1) (A x.1) o o' x.2 := by
  unfold ntkOut
  refine (measurable_quad hR A hA o o').add ?_
  split
  · exact hc0.comp measurable_fst
  · exact measurable_const

lemma measurable_out2 {E : Type} [MeasurableSpace E] {ν : Measure Ω} {v : κ → ℝ} {R : ο → κ → Ω → ℝ} (hR : Rows ν v R) (o : ο) {a : E → κ → ℝ} (ha : Measurable a) :
    Measurable fun x : E × Ω => rowOut R o (a x.1) x.2 :=
  Finset.measurable_sum _ fun k _ => ((hR.meas o k).comp measurable_snd).mul ((measurable_pi_apply k).comp (ha.comp measurable_fst))

lemma measurable_ntkAct {E : Type} [MeasurableSpace E] {ν : Measure Ω} {v : κ → ℝ} {R : ο → κ → Ω → ℝ} (hR : Rows ν v R) {a b : E → κ → ℝ} {c : E → ℝ} {A : E → κ → κ → ℝ}
    (ha : Measurable a) (hb : Measurable b) (hc0 : Measurable c) (hA : ∀ k l, Measurable fun θ => A θ k l) {g : ℝ → ℝ} (hg : Measurable g) (o o' : ο) :
    Measurable fun x : E × Ω => ntkAct g R (a x.1) (b x.1) (c x.1) (A x.1) o o' x.2 :=
  ((hg.comp (measurable_out2 hR o ha)).mul (hg.comp (measurable_out2 hR o' hb))).mul (measurable_ntkOut hR hc0 hA o o')

/-- Entries of the tangent kernel of a layer. -/
lemma ntk_entry {ε δ : ℝ} (hε : 0 < ε) (hδ : 0 < δ) (τ : ℝ) : ∃ η > 0, ∀ (E Ω ο κ : Type) [MeasurableSpace E] [MeasurableSpace Ω] [Fintype ο] [Fintype κ]
      [DecidableEq ο] (μ : Measure E) [IsProbabilityMeasure μ] (ν : Measure Ω) (v : κ → ℝ) (R : ο → κ → Ω → ℝ) (c : E → ℝ) (A : E → κ → κ → ℝ),
      Rows ν v R → Measurable c → (∀ k l, Measurable fun θ => A θ k l) → ∀ o o',
      (μ.prod ν) {x | ε ≤ |ntkOut R (c x.1) (A x.1) o o' x.2 - if o = o' then τ else 0|} ≤
        μ {θ | η ≤ |wtr v (A θ) + c θ - τ|} + μ {θ | η ≤ frob v (A θ)} + ENNReal.ofReal δ := by
  set η := min 1 (δ * ε ^ 2 / 6) with hη
  have h0 : 0 < η := lt_min one_pos (by positivity)
  refine ⟨η, h0, fun E Ω ο κ _ _ _ _ _ μ _ ν v R c A hR hc0 hA o o' => ?_⟩
  have := hR.prob
  have hY : Measurable fun x : E × Ω => (ntkOut R (c x.1) (A x.1) o o' x.2 - if o = o' then τ else 0) ^ 2 :=
    ((measurable_ntkOut hR hc0 hA o o').sub_const _).pow_const 2
  have hB : MeasurableSet ({θ | η ≤ |wtr v (A θ) + c θ - τ|} ∪ {θ | η ≤ frob v (A θ)}) :=
    (measurableSet_le measurable_const (((measurable_wtr hA).add hc0).sub_const _).abs).union
      (measurableSet_le measurable_const (measurable_frob hA))
  have key := prod_markov μ ν hY (fun _ => sq_nonneg _) hB (c := δ * ε ^ 2) (ε := ε ^ 2) (by positivity) (fun θ => (hR.ntkOut_sq (c θ) (A θ) o o' τ).1) ?_
  · have e : {x : E × Ω | ε ≤ |ntkOut R (c x.1) (A x.1) o o' x.2 - if o = o' then τ else 0|} =
        {x | ε ^ 2 ≤ (ntkOut R (c x.1) (A x.1) o o' x.2 - if o = o' then τ else 0) ^ 2} := by
      ext x
      simp only [Set.mem_ofPred_eq]
      rw [← sq_abs (ntkOut R (c x.1) (A x.1) o o' x.2 - _), sq_le_sq₀ hε.le (abs_nonneg _)]
    rw [e]
    refine key.trans (add_le_add (measure_union_le _ _) (ENNReal.ofReal_le_ofReal ?_))
    rw [mul_div_cancel_right₀ _ (by positivity)]
  · intro θ hθ
    simp only [Set.mem_union, Set.mem_ofPred_eq, not_or, not_le] at hθ
    refine (hR.ntkOut_sq (c θ) (A θ) o o' τ).2.trans ?_
    have h1 : (if o = o' then wtr v (A θ) + c θ - τ else 0) ^ 2 ≤ η := by
      split
      · rw [← sq_abs]
        have := hθ.1
        have h1 : η ≤ 1 := min_le_left _ _
        nlinarith [abs_nonneg (wtr v (A θ) + c θ - τ)]
      · rw [zero_pow two_ne_zero]; exact h0.le
    have h2 : η ≤ δ * ε ^ 2 / 6 := min_le_right _ _
    linarith [hθ.2]

/-- Mean squares of the entries of the tangent kernel of a wide layer. -/
lemma ntk_frob {g : ℝ → ℝ} {M : ℝ} (bg : ∀ x, |g x| ≤ M) {ε δ : ℝ} (hε : 0 < ε) (hδ : 0 < δ) (τ : ℝ) : ∃ η > 0, ∃ n0 : ℕ,
      ∀ (E Ω ο κ : Type) [MeasurableSpace E] [MeasurableSpace Ω] [Fintype ο] [Fintype κ]
      [DecidableEq ο] (μ : Measure E) [IsProbabilityMeasure μ] (ν : Measure Ω) (v : κ → ℝ) (R : ο → κ → Ω → ℝ) (a b : E → κ → ℝ) (c : E → ℝ) (A : E → κ → κ → ℝ),
      Rows ν v R → Measurable a → Measurable b → Measurable c → (∀ k l, Measurable fun θ => A θ k l) → 0 < Fintype.card ο → n0 ≤ Fintype.card ο →
      (μ.prod ν) {x | ε ≤ (∑ o, ∑ o', ntkAct g R (a x.1) (b x.1) (c x.1) (A x.1) o o' x.2 ^ 2) / (Fintype.card ο : ℝ) ^ 2} ≤
        μ {θ | η ≤ |wtr v (A θ) + c θ - τ|} + μ {θ | η ≤ frob v (A θ)} + ENNReal.ofReal δ := by
  have hM : 0 ≤ M := (abs_nonneg _).trans (bg 0)
  set η := min 1 (δ * ε / (8 * (M ^ 4 + 1))) with hη
  have h0 : 0 < η := lt_min one_pos (by positivity)
  obtain ⟨n0, hn0⟩ := exists_nat_ge (4 * (M ^ 4 + 1) * (|τ| + 1) ^ 2 / (δ * ε))
  refine ⟨η, h0, n0, fun E Ω ο κ _ _ _ _ _ μ _ ν v R a b c A hR ha hb hc0 hA hc hn => ?_⟩
  have := hR.prob
  have hc' : (0 : ℝ) < Fintype.card ο := by exact_mod_cast hc
  set n : ℝ := (Fintype.card ο : ℝ) with hnd
  have hY : Measurable fun x : E × Ω => M ^ 4 * (∑ o, ∑ o', ntkOut R (c x.1) (A x.1) o o' x.2 ^ 2) / n ^ 2 :=
    ((Finset.measurable_sum _ fun o _ => Finset.measurable_sum _ fun o' _ => (measurable_ntkOut hR hc0 hA o o').pow_const 2).const_mul _).div_const _
  have hB : MeasurableSet ({θ | η ≤ |wtr v (A θ) + c θ - τ|} ∪ {θ | η ≤ frob v (A θ)}) :=
    (measurableSet_le measurable_const (((measurable_wtr hA).add hc0).sub_const _).abs).union
      (measurableSet_le measurable_const (measurable_frob hA))
  have sq : ∀ θ o o', Integrable (fun ω => ntkOut R (c θ) (A θ) o o' ω ^ 2) ν ∧ ∫ ω, ntkOut R (c θ) (A θ) o o' ω ^ 2 ∂ν ≤
      4 * frob v (A θ) + 2 * (if o = o' then wtr v (A θ) + c θ else 0) ^ 2 := by
    intro θ o o'
    have := hR.ntkOut_sq (c θ) (A θ) o o' 0
    simpa only [ite_self, sub_zero] using this
  have key := prod_markov μ ν hY (fun x => by positivity) hB (c := δ * ε) (ε := ε) hε
    (fun θ => ((integrable_finsetSum _ fun o _ => integrable_finsetSum _ fun o' _ => (sq θ o o').1).const_mul _).div_const _) ?_
  · refine (measure_mono fun x hx => ?_).trans (key.trans (add_le_add (measure_union_le _ _) (ENNReal.ofReal_le_ofReal ?_)))
    · simp only [Set.mem_ofPred_eq] at hx ⊢
      refine hx.trans (div_le_div_of_nonneg_right ?_ (by positivity))
      rw [Finset.mul_sum]
      refine Finset.sum_le_sum fun o _ => ?_
      rw [Finset.mul_sum]
      refine Finset.sum_le_sum fun o' _ => ?_
      unfold ntkAct
      rw [mul_pow]
      refine mul_le_mul_of_nonneg_right ?_ (sq_nonneg _)
      have h1 : |g (rowOut R o (a x.1) x.2) * g (rowOut R o' (b x.1) x.2)| ≤ M * M := by
        rw [abs_mul]
        exact mul_le_mul (bg _) (bg _) (abs_nonneg _) hM
      rw [← sq_abs]
      calc _ ≤ (M * M) ^ 2 := pow_le_pow_left₀ (abs_nonneg _) h1 2
        _ = M ^ 4 := by ring
    · rw [mul_div_cancel_right₀ _ hε.ne']
  · intro θ hθ
    simp only [Set.mem_union, Set.mem_ofPred_eq, not_or, not_le] at hθ
    rw [integral_div, integral_const_mul, integral_finsetSum _ fun o _ => integrable_finsetSum _ fun o' _ => (sq θ o o').1]
    set t := wtr v (A θ) + c θ with ht
    have s1 : ∀ o ∈ (Finset.univ : Finset ο), ∫ ω, ∑ o', ntkOut R (c θ) (A θ) o o' ω ^ 2 ∂ν ≤ n * (4 * frob v (A θ)) + 2 * t ^ 2 := by
      intro o _
      rw [integral_finsetSum _ fun o' _ => (sq θ o o').1]
      refine (Finset.sum_le_sum fun o' _ => (sq θ o o').2).trans (le_of_eq ?_)
      rw [Finset.sum_add_distrib]
      simp only [ite_pow, zero_pow two_ne_zero, mul_ite, mul_zero, Finset.sum_ite_eq, Finset.mem_univ, if_true, Finset.sum_const, nsmul_eq_mul]
      rfl
    have s2 := Finset.sum_le_sum s1
    rw [Finset.sum_const, nsmul_eq_mul] at s2
    have ht2 : t ^ 2 ≤ (|τ| + 1) ^ 2 := by
      rw [← sq_abs t]
      refine pow_le_pow_left₀ (abs_nonneg _) ?_ 2
      have h1 := hθ.1.trans_le (min_le_left _ _)
      have := abs_sub_abs_le_abs_sub t τ
      linarith
    have hn' : (n0 : ℝ) ≤ n := by rw [hnd]; exact_mod_cast hn
    have hnn : 4 * (M ^ 4 + 1) * (|τ| + 1) ^ 2 ≤ δ * ε * n := by
      rw [div_le_iff₀ (by positivity)] at hn0
      nlinarith [mul_pos hδ hε]
    have hf : frob v (A θ) ≤ δ * ε / (8 * (M ^ 4 + 1)) := hθ.2.le.trans (min_le_right _ _)
    rw [le_div_iff₀ (by positivity)] at hf
    rw [div_le_iff₀ (by positivity)]
    have hfn : 0 ≤ frob v (A θ) := by
      have o : ο := (Fintype.card_pos_iff.1 hc).some
      exact Finset.sum_nonneg fun k _ => Finset.sum_nonneg fun l _ => mul_nonneg (mul_nonneg (hR.var_nonneg o k) (hR.var_nonneg o l)) (sq_nonneg _)
    have hM4 : 0 ≤ M ^ 4 := by positivity
    calc M ^ 4 * _ ≤ M ^ 4 * (n * (n * (4 * frob v (A θ)) + 2 * t ^ 2)) := mul_le_mul_of_nonneg_left s2 hM4
      _ ≤ (M ^ 4 + 1) * (n * (n * (4 * frob v (A θ)) + 2 * (|τ| + 1) ^ 2)) := by
        refine mul_le_mul (by linarith) ?_ (by positivity) (by positivity)
        refine mul_le_mul_of_nonneg_left ?_ hc'.le
        linarith
      _ = n ^ 2 * (4 * (M ^ 4 + 1) * frob v (A θ)) + n * (2 * (M ^ 4 + 1) * (|τ| + 1) ^ 2) := by ring
      _ ≤ n ^ 2 * (δ * ε / 2) + n * (δ * ε * n / 2) := by
        refine add_le_add (mul_le_mul_of_nonneg_left ?_ (by positivity)) (mul_le_mul_of_nonneg_left ?_ hc'.le)
        · linarith
        · linarith
      _ = δ * ε * n ^ 2 := by ring

/-- How the average over the channels deviates from its limit. -/
lemma mean_split {v : κ → ℝ} {R : ο → κ → Ω → ℝ} {g : ℝ → ℝ} {M : ℝ} (bg : ∀ x, |g x| ≤ M) (hc : 0 < Fintype.card ο) (a b : κ → ℝ) (c : ℝ) (A : κ → κ → ℝ)
    {L τ : ℝ} (ω : Ω) : ((∑ o, ntkAct g R a b c A o o ω) / (Fintype.card ο : ℝ) - L * τ) ^ 2 ≤
      4 * ((wtr v A + c) ^ 2 * ((∑ o, g (rowOut R o a ω) * g (rowOut R o b ω)) / (Fintype.card ο : ℝ) - E2 g g (rowCov v a b)) ^ 2 +
        (wtr v A + c) ^ 2 * (E2 g g (rowCov v a b) - L) ^ 2 + L ^ 2 * (wtr v A + c - τ) ^ 2 +
        M ^ 4 * (∑ o, (quad R o o A ω - wtr v A) ^ 2) / (Fintype.card ο : ℝ)) := by
  have hM : 0 ≤ M := (abs_nonneg _).trans (bg 0)
  have hc' : (0 : ℝ) < Fintype.card ο := by exact_mod_cast hc
  set n : ℝ := (Fintype.card ο : ℝ) with hnd
  set t := wtr v A + c with ht
  set G := (∑ o, g (rowOut R o a ω) * g (rowOut R o b ω)) / n with hG
  set Lθ := E2 g g (rowCov v a b) with hLθ
  set W := (∑ o, g (rowOut R o a ω) * g (rowOut R o b ω) * (quad R o o A ω - wtr v A)) / n with hW
  have e : (∑ o, ntkAct g R a b c A o o ω) / n = G * t + W := by
    rw [hG, hW, div_mul_eq_mul_div, ← add_div, Finset.sum_mul, ← Finset.sum_add_distrib]
    congr 1
    refine Finset.sum_congr rfl fun o _ => ?_
    unfold ntkAct ntkOut
    rw [if_pos rfl, ht]
    ring
  have hW2 : W ^ 2 ≤ M ^ 4 * (∑ o, (quad R o o A ω - wtr v A) ^ 2) / n := by
    have cs := sq_sum_le_card_mul_sum_sq (s := (Finset.univ : Finset ο))
      (f := fun o => g (rowOut R o a ω) * g (rowOut R o b ω) * (quad R o o A ω - wtr v A))
    rw [hW, div_pow, div_le_div_iff₀ (by positivity) hc']
    have le : ∑ o, (g (rowOut R o a ω) * g (rowOut R o b ω) * (quad R o o A ω - wtr v A)) ^ 2 ≤
        M ^ 4 * ∑ o, (quad R o o A ω - wtr v A) ^ 2 := by
      rw [Finset.mul_sum]
      refine Finset.sum_le_sum fun o _ => ?_
      rw [mul_pow]
      refine mul_le_mul_of_nonneg_right ?_ (sq_nonneg _)
      have h1 : |g (rowOut R o a ω) * g (rowOut R o b ω)| ≤ M * M := by
        rw [abs_mul]
        exact mul_le_mul (bg _) (bg _) (abs_nonneg _) hM
      rw [← sq_abs]
      calc _ ≤ (M * M) ^ 2 := pow_le_pow_left₀ (abs_nonneg _) h1 2
        _ = M ^ 4 := by ring
    have cs' : (∑ o, g (rowOut R o a ω) * g (rowOut R o b ω) * (quad R o o A ω - wtr v A)) ^ 2 ≤
        n * (M ^ 4 * ∑ o, (quad R o o A ω - wtr v A) ^ 2) := cs.trans (mul_le_mul_of_nonneg_left le hc'.le)
    calc _ ≤ n * (M ^ 4 * ∑ o, (quad R o o A ω - wtr v A) ^ 2) * n := mul_le_mul_of_nonneg_right cs' hc'.le
      _ = _ := by ring
  rw [e]
  have e2 : G * t + W - L * τ = t * (G - Lθ) + t * (Lθ - L) + L * (t - τ) + W := by ring
  rw [e2]
  have four : ∀ x y z w : ℝ, (x + y + z + w) ^ 2 ≤ 4 * (x ^ 2 + y ^ 2 + z ^ 2 + w ^ 2) := by
    intro x y z w
    nlinarith [sq_nonneg (x - y), sq_nonneg (x - z), sq_nonneg (x - w), sq_nonneg (y - z), sq_nonneg (y - w), sq_nonneg (z - w)]
  refine (four _ _ _ _).trans ?_
  rw [mul_pow, mul_pow, mul_pow]
  linarith

lemma sq_le_of_abs {x c : ℝ} (h : |x| ≤ min 1 c) : x ^ 2 ≤ c := by
  rw [← sq_abs]
  have u1 := h.trans (min_le_left _ _)
  have u2 := h.trans (min_le_right _ _)
  nlinarith [abs_nonneg x]

lemma small' {l m f D : ℝ} (hl : 0 ≤ l) (hm : 0 ≤ m) (hf : 0 ≤ f) (_ : 0 ≤ D) (h : f ≤ D / (32 * (l + m + 1))) : m * f ≤ D / 32 := by
  rw [le_div_iff₀ (by positivity)] at h
  nlinarith [mul_nonneg hl hf, mul_nonneg hm hf]

lemma small {l m f D : ℝ} (hl : 0 ≤ l) (hm : 0 ≤ m) (hf : 0 ≤ f) (hD : 0 ≤ D) (h : f ≤ D / (32 * (l + m + 1))) : l * f ≤ D / 16 := by
  rw [add_comm l m] at h
  have := small' hm hl hf hD h
  linarith

/-- Averages over the channels of the tangent kernel of a wide layer. -/
lemma ntk_mean {g : ℝ → ℝ} (hg : Measurable g) {M : ℝ} (bg : ∀ x, |g x| ≤ M) {q : Sym} (hq : ContinuousWithinAt (E2 g g) {q | Psd q} q) {ε δ : ℝ}
      (hε : 0 < ε) (hδ : 0 < δ) (τ : ℝ) : ∃ η > 0, ∃ n0 : ℕ,
      ∀ (E Ω ο κ : Type) [MeasurableSpace E] [MeasurableSpace Ω] [Fintype ο] [Fintype κ]
      [DecidableEq ο] (μ : Measure E) [IsProbabilityMeasure μ] (ν : Measure Ω) (v : κ → ℝ) (R : ο → κ → Ω → ℝ) (a b : E → κ → ℝ) (c : E → ℝ) (A : E → κ → κ → ℝ),
      Rows ν v R → Measurable a → Measurable b → Measurable c → (∀ k l, Measurable fun θ => A θ k l) → 0 < Fintype.card ο → n0 ≤ Fintype.card ο →
      (μ.prod ν) {x | ε ≤ |(∑ o, ntkAct g R (a x.1) (b x.1) (c x.1) (A x.1) o o x.2) / Fintype.card ο - E2 g g q * τ|} ≤
        μ {θ | η ≤ dist (rowCov v (a θ) (b θ)) q} + μ {θ | η ≤ |wtr v (A θ) + c θ - τ|} + μ {θ | η ≤ frob v (A θ)} +
          ENNReal.ofReal δ := by
  have hM : 0 ≤ M := (abs_nonneg _).trans (bg 0)
  set L := E2 g g q with hLd
  -- the square of the bound
  set D := δ * ε ^ 2 with hD
  have hD0 : 0 < D := by positivity
  set K := (|τ| + 1) ^ 2 with hK
  have hK0 : 0 < K := by positivity
  set η1 := min 1 (D / (16 * K)) with hη1
  have h10 : 0 < η1 := lt_min one_pos (by positivity)
  obtain ⟨η2, h20, c2⟩ := Metric.continuousWithinAt_iff.1 hq η1 h10
  set η3 := min 1 (D / (32 * (L ^ 2 + M ^ 4 + 1))) with hη3
  have h30 : 0 < η3 := lt_min one_pos (by positivity)
  obtain ⟨n0, hn0⟩ := exists_nat_ge (16 * (K * M ^ 4) / D)
  refine ⟨min η2 η3, lt_min h20 h30, n0, fun E Ω ο κ _ _ _ _ _ μ _ ν v R a b c A hR ha hb hc0 hA hc hn => ?_⟩
  set η := min η2 η3 with hη
  have := hR.prob
  have hc' : (0 : ℝ) < Fintype.card ο := by exact_mod_cast hc
  set n : ℝ := (Fintype.card ο : ℝ) with hnd
  have hY : Measurable fun x : E × Ω => ((∑ o, ntkAct g R (a x.1) (b x.1) (c x.1) (A x.1) o o x.2) / n - L * τ) ^ 2 :=
    (((Finset.measurable_sum _ fun o _ => measurable_ntkAct hR ha hb hc0 hA hg o o).div_const _).sub_const _).pow_const 2
  have hT : Measurable fun θ => rowCov v (a θ) (b θ) := (measurable_dot ha ha).prodMk ((measurable_dot ha hb).prodMk (measurable_dot hb hb))
  have hB : MeasurableSet ({θ | η ≤ dist (rowCov v (a θ) (b θ)) q} ∪ {θ | η ≤ |wtr v (A θ) + c θ - τ|} ∪ {θ | η ≤ frob v (A θ)}) :=
    ((measurableSet_le measurable_const (hT.dist measurable_const)).union
      (measurableSet_le measurable_const (((measurable_wtr hA).add hc0).sub_const _).abs)).union
      (measurableSet_le measurable_const (measurable_frob hA))
  have split := fun θ ω => mean_split (v := v) (R := R) bg hc (a θ) (b θ) (c θ) (A θ) (L := L) (τ := τ) ω
  have ms := fun θ => hR.mean_sq (a θ) (b θ) hg hg bg bg hc
  have qs : ∀ θ o, Integrable (fun ω => (quad R o o (A θ) ω - wtr v (A θ)) ^ 2) ν ∧ ∫ ω, (quad R o o (A θ) ω - wtr v (A θ)) ^ 2 ∂ν ≤ 2 * frob v (A θ) := by
    intro θ o
    have := hR.quad_sq o o (A θ)
    simpa only [if_true] using this
  have iQ : ∀ θ, Integrable (fun ω => M ^ 4 * (∑ o, (quad R o o (A θ) ω - wtr v (A θ)) ^ 2) / n) ν := fun θ =>
    ((integrable_finsetSum _ fun o _ => (qs θ o).1).const_mul _).div_const _
  have i1 : ∀ θ, Integrable (fun ω => (wtr v (A θ) + c θ) ^ 2 *
      ((∑ o, g (rowOut R o (a θ) ω) * g (rowOut R o (b θ) ω)) / n - E2 g g (rowCov v (a θ) (b θ))) ^ 2) ν := fun θ => (ms θ).1.const_mul _
  have i2 : ∀ θ, Integrable (fun ω => (wtr v (A θ) + c θ) ^ 2 *
      ((∑ o, g (rowOut R o (a θ) ω) * g (rowOut R o (b θ) ω)) / n - E2 g g (rowCov v (a θ) (b θ))) ^ 2 +
        (wtr v (A θ) + c θ) ^ 2 * (E2 g g (rowCov v (a θ) (b θ)) - L) ^ 2) ν := fun θ => (i1 θ).add (integrable_const _)
  have i3 : ∀ θ, Integrable (fun ω => (wtr v (A θ) + c θ) ^ 2 *
      ((∑ o, g (rowOut R o (a θ) ω) * g (rowOut R o (b θ) ω)) / n - E2 g g (rowCov v (a θ) (b θ))) ^ 2 +
        (wtr v (A θ) + c θ) ^ 2 * (E2 g g (rowCov v (a θ) (b θ)) - L) ^ 2 + L ^ 2 * (wtr v (A θ) + c θ - τ) ^ 2) ν :=
    fun θ => (i2 θ).add (integrable_const _)
  have i4 := fun θ => ((i3 θ).add (iQ θ)).const_mul 4
  have iY : ∀ θ, Integrable (fun ω => ((∑ o, ntkAct g R (a θ) (b θ) (c θ) (A θ) o o ω) / n - L * τ) ^ 2) ν := fun θ => by
    refine (i4 θ).mono' (hY.comp measurable_prodMk_left).aestronglyMeasurable (.of_forall fun ω => ?_)
    rw [Real.norm_eq_abs, abs_of_nonneg (sq_nonneg _)]
    exact split θ ω
  have key := prod_markov μ ν hY (fun x => sq_nonneg _) hB (c := D) (ε := ε ^ 2) (by positivity) iY ?_
  · have e : {x : E × Ω | ε ≤ |(∑ o, ntkAct g R (a x.1) (b x.1) (c x.1) (A x.1) o o x.2) / n - L * τ|} =
        {x | ε ^ 2 ≤ ((∑ o, ntkAct g R (a x.1) (b x.1) (c x.1) (A x.1) o o x.2) / n - L * τ) ^ 2} := by
      ext x
      simp only [Set.mem_ofPred_eq]
      rw [← sq_abs (_ / n - L * τ), sq_le_sq₀ hε.le (abs_nonneg _)]
    rw [e]
    refine key.trans (add_le_add ((measure_union_le _ _).trans (add_le_add (measure_union_le _ _) le_rfl)) (ENNReal.ofReal_le_ofReal ?_))
    rw [hD, mul_div_cancel_right₀ _ (by positivity)]
  · intro θ hθ
    simp only [Set.mem_union, Set.mem_ofPred_eq, not_or, not_le] at hθ
    obtain ⟨⟨b1, b2⟩, b3⟩ := hθ
    obtain ⟨o⟩ : Nonempty ο := Fintype.card_pos_iff.1 hc
    have d1 := c2 (hR.psd o (a θ) (b θ)) (b1.trans_le (min_le_left _ _))
    rw [Real.dist_eq] at d1
    refine (integral_mono (iY θ) (i4 θ) (split θ)).trans ?_
    have e4 := integral_const_mul (μ := ν) 4 (fun ω => (wtr v (A θ) + c θ) ^ 2 *
      ((∑ o, g (rowOut R o (a θ) ω) * g (rowOut R o (b θ) ω)) / n - E2 g g (rowCov v (a θ) (b θ))) ^ 2 +
        (wtr v (A θ) + c θ) ^ 2 * (E2 g g (rowCov v (a θ) (b θ)) - L) ^ 2 + L ^ 2 * (wtr v (A θ) + c θ - τ) ^ 2 +
        M ^ 4 * (∑ o, (quad R o o (A θ) ω - wtr v (A θ)) ^ 2) / n)
    refine (le_of_eq e4).trans ?_
    rw [integral_add (i3 θ) (iQ θ), integral_add (i2 θ) (integrable_const _), integral_add (i1 θ) (integrable_const _), integral_const, integral_const,
      probReal_univ, one_smul, one_smul, integral_const_mul, integral_div, integral_const_mul, integral_finsetSum _ fun o _ => (qs θ o).1]
    set t := wtr v (A θ) + c θ with ht
    have q2 : ∑ o, ∫ ω, (quad R o o (A θ) ω - wtr v (A θ)) ^ 2 ∂ν ≤ n * (2 * frob v (A θ)) := by
      refine (Finset.sum_le_sum fun o _ => (qs θ o).2).trans (le_of_eq ?_)
      rw [Finset.sum_const, nsmul_eq_mul]
      rfl
    have ht2 : t ^ 2 ≤ K := by
      rw [← sq_abs t]
      refine pow_le_pow_left₀ (abs_nonneg _) ?_ 2
      have h1 := b2.trans_le ((min_le_right _ _).trans (min_le_left _ _))
      have := abs_sub_abs_le_abs_sub t τ
      linarith
    have p1 : t ^ 2 * ∫ ω, ((∑ o, g (rowOut R o (a θ) ω) * g (rowOut R o (b θ) ω)) / n - E2 g g (rowCov v (a θ) (b θ))) ^ 2 ∂ν ≤ D / 16 := by
      refine (mul_le_mul ht2 (ms θ).2 (integral_nonneg fun ω => sq_nonneg _) hK0.le).trans ?_
      have hn' : (n0 : ℝ) ≤ n := by rw [hnd]; exact_mod_cast hn
      rw [div_le_iff₀ hD0] at hn0
      rw [mul_div_assoc', div_le_iff₀ hc']
      nlinarith
    have p2 : t ^ 2 * (E2 g g (rowCov v (a θ) (b θ)) - L) ^ 2 ≤ D / 16 := by
      have h1 : (E2 g g (rowCov v (a θ) (b θ)) - L) ^ 2 ≤ D / (16 * K) := by
        exact sq_le_of_abs d1.le
      refine (mul_le_mul ht2 h1 (sq_nonneg _) hK0.le).trans (le_of_eq ?_)
      field_simp
    have b3' : frob v (A θ) ≤ D / (32 * (L ^ 2 + M ^ 4 + 1)) := b3.le.trans ((min_le_right _ _).trans (min_le_right _ _))
    have hM4 : 0 ≤ M ^ 4 := by positivity
    have p3 : L ^ 2 * (t - τ) ^ 2 ≤ D / 16 := by
      have h1 : (t - τ) ^ 2 ≤ D / (32 * (L ^ 2 + M ^ 4 + 1)) := sq_le_of_abs (b2.le.trans (min_le_right _ _))
      exact small (sq_nonneg L) hM4 (sq_nonneg _) hD0.le h1
    have p4 : M ^ 4 * (∑ o, ∫ ω, (quad R o o (A θ) ω - wtr v (A θ)) ^ 2 ∂ν) / n ≤ D / 16 := by
      rw [div_le_iff₀ hc']
      refine (mul_le_mul_of_nonneg_left q2 hM4).trans ?_
      have hfn : 0 ≤ frob v (A θ) :=
        Finset.sum_nonneg fun k _ => Finset.sum_nonneg fun l _ => mul_nonneg (mul_nonneg (hR.var_nonneg o k) (hR.var_nonneg o l)) (sq_nonneg _)
      have := small' (sq_nonneg L) hM4 hfn hD0.le b3'
      calc M ^ 4 * (n * (2 * frob v (A θ))) = 2 * (M ^ 4 * frob v (A θ)) * n := by ring
        _ ≤ 2 * (D / 32) * n := by gcongr
        _ = D / 16 * n := by ring
    linarith

end NT.Gauss
