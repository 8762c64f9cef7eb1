import Verif.Tac
import Verif.Lemmas.GaussPrice

/-!
# Expectations over Gaussian pairs depend continuously on the covariance matrix

The pair of covariance matrix `q` is the image of two independent variables under the square root of `q`, which is continuous on the positive semidefinite
matrices, including the singular ones.
-/

namespace NT.Gauss
open MeasureTheory ProbabilityTheory Spec

/-- Entries `q11`, `q12`, `q22` of a symmetric matrix. -/
abbrev Sym : Type := ℝ × ℝ × ℝ

/-- Positive semidefinite. -/
def Psd (q : Sym) : Prop := 0 ≤ q.1 ∧ 0 ≤ q.2.2 ∧ q.2.1 ^ 2 ≤ q.1 * q.2.2

/-- Root of the determinant. -/
noncomputable def rdet (q : Sym) : ℝ := Real.sqrt (q.1 * q.2.2 - q.2.1 ^ 2)

/-- Trace of the square root. -/
noncomputable def rtr (q : Sym) : ℝ := Real.sqrt (q.1 + q.2.2 + 2 * rdet q)

/-- The square root of a positive semidefinite matrix. -/
noncomputable def msqrt (q : Sym) : Sym := ((q.1 + rdet q) / rtr q, q.2.1 / rtr q, (q.2.2 + rdet q) / rtr q)

/-- The linear image of a pair. -/
def lin (a : Sym) (z : ℝ × ℝ) : ℝ × ℝ := (a.1 * z.1 + a.2.1 * z.2, a.2.1 * z.1 + a.2.2 * z.2)

lemma continuous_rdet : Continuous rdet := by unfold rdet; fun_prop

lemma continuous_rtr : Continuous rtr := by
  have := continuous_rdet
  unfold rtr
  fun_prop

lemma rdet_sq {q : Sym} (h : Psd q) : rdet q ^ 2 = q.1 * q.2.2 - q.2.1 ^ 2 := Real.sq_sqrt (sub_nonneg.2 h.2.2)

lemma rdet_nonneg (q : Sym) : 0 ≤ rdet q := Real.sqrt_nonneg _

lemma rtr_sq {q : Sym} (h : Psd q) : rtr q ^ 2 = q.1 + q.2.2 + 2 * rdet q :=
  Real.sq_sqrt (by have := h.1; have := h.2.1; have := rdet_nonneg q; linarith)

lemma rtr_nonneg (q : Sym) : 0 ≤ rtr q := Real.sqrt_nonneg _

lemma abs_cov_le {q : Sym} (h : Psd q) : |q.2.1| ≤ (q.1 + q.2.2) / 2 := by
  have h1 := h.1
  have h2 := h.2.1
  refine abs_le_of_sq_le_sq ?_ (by linarith)
  have := h.2.2
  nlinarith [sq_nonneg (q.1 - q.2.2)]

/-- The entries of the root are at most the trace of the root. -/
lemma msqrt_le {q : Sym} (h : Psd q) : |(msqrt q).1| ≤ rtr q ∧ |(msqrt q).2.1| ≤ rtr q ∧ |(msqrt q).2.2| ≤ rtr q := by
  have h1 := h.1
  have h2 := h.2.1
  have d := rdet_nonneg q
  have t := rtr_sq h
  have key : ∀ x : ℝ, |x| ≤ rtr q ^ 2 → |x / rtr q| ≤ rtr q := by
    intro x hx
    rcases (rtr_nonneg q).eq_or_lt with e | e
    · rw [← e]
      simp
    · rw [abs_div, abs_of_pos e, div_le_iff₀ e, ← pow_two]
      exact hx
  refine ⟨key _ ?_, key _ ?_, key _ ?_⟩
  · rw [t, abs_of_nonneg (by linarith)]
    linarith
  · have := abs_cov_le h
    rw [t]
    linarith
  · rw [t, abs_of_nonneg (by linarith)]
    linarith

lemma msqrt_cont {q : Sym} (hq : Psd q) : ContinuousWithinAt msqrt {q | Psd q} q := by
  rcases (rtr_nonneg q).eq_or_lt with e | e
  · -- at zero
    have z : msqrt q = 0 := by
      obtain ⟨a, b, c⟩ := msqrt_le hq
      rw [← e] at a b c
      ext
      · exact abs_nonpos_iff.1 a
      · exact abs_nonpos_iff.1 b
      · exact abs_nonpos_iff.1 c
    have lim : Filter.Tendsto rtr (nhdsWithin q {q | Psd q}) (nhds 0) := by
      have := continuous_rtr.continuousAt (x := q)
      rw [ContinuousAt, ← e] at this
      exact this.mono_left nhdsWithin_le_nhds
    have ev : ∀ᶠ r in nhdsWithin q {q | Psd q}, Psd r := self_mem_nhdsWithin
    unfold ContinuousWithinAt
    rw [z]
    refine Filter.Tendsto.prodMk_nhds (squeeze_zero_norm' (ev.mono fun r hr => (msqrt_le hr).1) lim) ?_
    exact Filter.Tendsto.prodMk_nhds (squeeze_zero_norm' (ev.mono fun r hr => (msqrt_le hr).2.1) lim)
      (squeeze_zero_norm' (ev.mono fun r hr => (msqrt_le hr).2.2) lim)
  · refine ContinuousAt.continuousWithinAt ?_
    have d := continuous_rdet.continuousAt (x := q)
    have t := continuous_rtr.continuousAt (x := q)
    unfold msqrt
    have e' := e.ne'
    fun_prop (disch := exact e')

lemma measurable_lin (a : Sym) : Measurable (lin a) := by unfold lin; fun_prop

/-- The image under the root is the pair with the given covariances. -/
lemma msqrt_pair {q : Sym} (h : Psd q) : GaussPair (std2.map (lin (msqrt q))) q.1 q.2.1 q.2.2 := by
  have := std2_pair.map_pair (msqrt q).1 (msqrt q).2.1 (msqrt q).2.1 (msqrt q).2.2
  have h1 := h.1
  have h2 := h.2.1
  have d := rdet_nonneg q
  have ds := rdet_sq h
  have t := rtr_sq h
  have key : (msqrt q).1 ^ 2 + (msqrt q).2.1 ^ 2 = q.1 ∧ (msqrt q).1 * (msqrt q).2.1 + (msqrt q).2.1 * (msqrt q).2.2 = q.2.1 ∧
      (msqrt q).2.1 ^ 2 + (msqrt q).2.2 ^ 2 = q.2.2 := by
    rcases (rtr_nonneg q).eq_or_lt with e | e
    · rw [← e] at t
      have z1 : q.1 = 0 := by nlinarith
      have z2 : q.2.2 = 0 := by nlinarith
      have z3 : q.2.1 = 0 := by
        have := abs_cov_le h
        rw [z1, z2] at this
        simpa using this
      simp [msqrt, ← e, z1, z2, z3]
    · have e' := e.ne'
      simp only [msqrt]
      generalize rtr q = T at *
      generalize rdet q = D at *
      obtain ⟨a, b, c⟩ := q
      simp only at *
      refine ⟨?_, ?_, ?_⟩ <;> field_simp
      · rw [t]
        linear_combination ds
      · rw [t]
        ring
      · rw [t]
        linear_combination ds
  have e1 : (msqrt q).1 ^ 2 * 1 + 2 * (msqrt q).1 * (msqrt q).2.1 * 0 + (msqrt q).2.1 ^ 2 * 1 = q.1 := by linarith [key.1]
  have e2 : (msqrt q).1 * (msqrt q).2.1 * 1 + ((msqrt q).1 * (msqrt q).2.2 + (msqrt q).2.1 * (msqrt q).2.1) * 0 + (msqrt q).2.1 * (msqrt q).2.2 * 1 = q.2.1 := by
    linarith [key.2.1]
  have e3 : (msqrt q).2.1 ^ 2 * 1 + 2 * (msqrt q).2.1 * (msqrt q).2.2 * 0 + (msqrt q).2.2 ^ 2 * 1 = q.2.2 := by linarith [key.2.2]
  rw [e1, e2, e3] at this
  exact this

/-- `E[g(u) h(v)]` for the pair of covariance `q`. -/
noncomputable def E2 (g h : ℝ → ℝ) (q : Sym) : ℝ := ∫ z, g (lin (msqrt q) z).1 * h (lin (msqrt q) z).2 ∂std2

lemma psd_of_pair {P : Measure (ℝ × ℝ)} {q11 q12 q22 : ℝ} (hP : GaussPair P q11 q12 q22) : Psd (q11, q12, q22) := ⟨hP.nonneg1, hP.nonneg2, hP.cs⟩

lemma E2_eq {P : Measure (ℝ × ℝ)} {q11 q12 q22 : ℝ} (hP : GaussPair P q11 q12 q22) {g h : ℝ → ℝ} (hg : Measurable g) (hh : Measurable h) :
    ∫ x, g x.1 * h x.2 ∂P = E2 g h (q11, q12, q22) := by
  rw [hP.unique (msqrt_pair (psd_of_pair hP))]
  exact integral_map (measurable_lin _).aemeasurable (Measurable.aestronglyMeasurable (by fun_prop))

/-- Expectations of tame continuous functions of linear images. -/
lemma continuous_lin_expect {g h : ℝ → ℝ} (cg : Continuous g) (ch : Continuous h) (tg : Tame g) (th : Tame h) :
    Continuous fun a => ∫ z, g (lin a z).1 * h (lin a z).2 ∂std2 := by
  have hs := std2_pair.gaussian
  refine continuous_iff_continuousAt.2 fun a0 => ?_
  set M := max (|a0.1| + 1) (max (|a0.2.1| + 1) (|a0.2.2| + 1)) with hMd
  have hM : 0 ≤ M := le_max_of_le_left (by positivity)
  have hb : ∀ᶠ a : Sym in nhds a0, |a.1| ≤ M ∧ |a.2.1| ≤ M ∧ |a.2.2| ≤ M := by
    have k1 : Continuous fun a : Sym => |a.1| := by fun_prop
    have k2 : Continuous fun a : Sym => |a.2.1| := by fun_prop
    have k3 : Continuous fun a : Sym => |a.2.2| := by fun_prop
    filter_upwards [k1.continuousAt.eventually_lt continuousAt_const (lt_add_one |a0.1|),
      k2.continuousAt.eventually_lt continuousAt_const (lt_add_one |a0.2.1|),
      k3.continuousAt.eventually_lt continuousAt_const (lt_add_one |a0.2.2|)] with a r1 r2 r3
    exact ⟨r1.le.trans (le_max_left _ _), r2.le.trans ((le_max_left _ _).trans (le_max_right _ _)),
      r3.le.trans ((le_max_right _ _).trans (le_max_right _ _))⟩
  obtain ⟨C, n, hC⟩ := tg.lin_bound M hM
  obtain ⟨D, m, hD⟩ := th.lin_bound M hM
  have gi : Integrable (fun z : ℝ × ℝ => |C * D| * ((1 + |z.1|) ^ (n + m) * (1 + |z.2|) ^ (n + m))) std2 :=
    ((tame_pow_abs (n + m)).integrable (P := std2) (tame_pow_abs (n + m))).const_mul _
  refine continuousAt_of_dominated (bound := fun z => |C * D| * ((1 + |z.1|) ^ (n + m) * (1 + |z.2|) ^ (n + m))) ?_ ?_ gi ?_
  · refine Filter.Eventually.of_forall fun a => Measurable.aestronglyMeasurable ?_
    have := measurable_lin a
    exact (cg.measurable.comp (measurable_fst.comp this)).mul (ch.measurable.comp (measurable_snd.comp this))
  · filter_upwards [hb] with a ha
    refine Filter.Eventually.of_forall fun z => ?_
    have r1 := hC _ _ z.1 z.2 ha.1 ha.2.1
    have r2 := hD _ _ z.1 z.2 ha.2.1 ha.2.2
    rw [Real.norm_eq_abs, abs_mul]
    refine (mul_le_mul r1 r2 (abs_nonneg _) ((abs_nonneg _).trans r1)).trans ?_
    rw [show C * ((1 + |z.1|) ^ n * (1 + |z.2|) ^ n) * (D * ((1 + |z.1|) ^ m * (1 + |z.2|) ^ m)) =
      C * D * ((1 + |z.1|) ^ (n + m) * (1 + |z.2|) ^ (n + m)) by rw [pow_add, pow_add]; ring]
    exact mul_le_mul_of_nonneg_right (le_abs_self _) (by positivity)
  · refine Filter.Eventually.of_forall fun z => ?_
    simp only [lin]
    have : Continuous fun a : Sym => g (a.1 * z.1 + a.2.1 * z.2) * h (a.2.1 * z.1 + a.2.2 * z.2) := by fun_prop
    exact this.continuousAt

/-- Expectations of tame continuous functions are continuous on the positive semidefinite matrices. -/
lemma E2_cont {g h : ℝ → ℝ} (cg : Continuous g) (ch : Continuous h) (tg : Tame g) (th : Tame h) {q : Sym} (hq : Psd q) :
    ContinuousWithinAt (E2 g h) {q | Psd q} q :=
  (continuous_lin_expect cg ch tg th).continuousAt.comp_continuousWithinAt (msqrt_cont hq)

end NT.Gauss
