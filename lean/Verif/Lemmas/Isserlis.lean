import Verif.Tac
import Verif.Lemmas.Rows

/-!
# Quadratic forms of independent Gaussian coefficients
-/

set_option linter.unusedSectionVars false

namespace NT.Gauss
open MeasureTheory ProbabilityTheory Spec

lemma _root_.NT.Spec.GaussPair.sq_sq {P : Measure (ℝ × ℝ)} {q11 q12 q22 : ℝ} (h : GaussPair P q11 q12 q22) :
    ∫ x, x.1 ^ 2 * x.2 ^ 2 ∂P = q11 * q22 + 2 * q12 ^ 2 := by
  have := h.gaussian
  have e0 : moment P 0 0 = 1 := by simp [moment]
  have e1 : moment P 1 1 = q12 := by
    have := h.moment_succ 0 1
    simpa [e0] using this
  have e2 : moment P 0 2 = q22 := by
    have := moment_right h 2
    rw [this]
    have := moment_right h 2
    unfold moment at this
    rw [← this]
    simpa using h.var2
  have := h.moment_succ 1 2
  norm_num at this
  unfold moment at this e1 e2
  simp only [pow_zero, one_mul, pow_one] at this e1 e2
  rw [this, e1, e2]
  ring

variable {Ω ο κ : Type} [MeasurableSpace Ω] [Fintype ο] [Fintype κ]

namespace Rows

variable {ν : Measure Ω} {v : κ → ℝ} {R : ο → κ → Ω → ℝ}

/-- The coefficients of all outputs as those of one output. -/
lemma flat (h : Rows ν v R) : Rows ν (fun i : ο × κ => v i.2) (fun (_ : Unit) (i : ο × κ) => R i.1 i.2) where
  gauss := by
    let L : (ο → κ → ℝ) →L[ℝ] (Unit → ο × κ → ℝ) := ContinuousLinearMap.pi fun _ => ContinuousLinearMap.pi fun i =>
      (ContinuousLinearMap.proj (R := ℝ) (φ := fun _ : κ => ℝ) i.2).comp (ContinuousLinearMap.proj (R := ℝ) (φ := fun _ : ο => κ → ℝ) i.1)
    exact h.gauss.map_fun L
  meas _ i := h.meas _ _
  mean _ i := h.mean _ _
  var _ i := h.var _ _
  cov _ i _ j hne := h.cov _ _ _ _ fun e => hne (by simpa using Prod.ext_iff.2 ⟨(Prod.ext_iff.1 e).1, (Prod.ext_iff.1 e).2⟩)

/-- The covariance of linear functions. -/
def dot (v a b : κ → ℝ) : ℝ := ∑ k, v k * (a k * b k)

lemma sq_sq (h : Rows ν v R) (o : ο) (a b : κ → ℝ) :
    Integrable (fun ω => rowOut R o a ω ^ 2 * rowOut R o b ω ^ 2) ν ∧
    ∫ ω, rowOut R o a ω ^ 2 * rowOut R o b ω ^ 2 ∂ν = dot v a a * dot v b b + 2 * dot v a b ^ 2 := by
  have hm : Measurable fun ω => (rowOut R o a ω, rowOut R o b ω) := (h.measurable_out o a).prodMk (h.measurable_out o b)
  have hp := h.pair o a b
  have := hp.gaussian
  constructor
  · have hi := (Tame.id.mul Tame.id).integrable (P := ν.map fun ω => (rowOut R o a ω, rowOut R o b ω)) (Tame.id.mul Tame.id)
    rw [integrable_map_measure hi.1 hm.aemeasurable] at hi
    refine hi.congr (.of_forall fun ω => ?_)
    simp only [Function.comp]
    ring
  · have := hp.sq_sq
    rw [integral_map hm.aemeasurable (Measurable.aestronglyMeasurable (by fun_prop))] at this
    exact this

lemma rowOut_add (o : ο) (a b : κ → ℝ) (ω : Ω) : rowOut R o (a + b) ω = rowOut R o a ω + rowOut R o b ω := by
  simp only [rowOut, Pi.add_apply, mul_add, Finset.sum_add_distrib]

lemma rowOut_sub (o : ο) (a b : κ → ℝ) (ω : Ω) : rowOut R o (a - b) ω = rowOut R o a ω - rowOut R o b ω := by
  simp only [rowOut, Pi.sub_apply, mul_sub, Finset.sum_sub_distrib]

lemma dot_add (v a b c : κ → ℝ) : dot v (a + b) c = dot v a c + dot v b c := by
  simp only [dot, ← Finset.sum_add_distrib, Pi.add_apply]
  exact Finset.sum_congr rfl fun k _ => by ring

lemma dot_sub (v a b c : κ → ℝ) : dot v (a - b) c = dot v a c - dot v b c := by
  simp only [dot, ← Finset.sum_sub_distrib, Pi.sub_apply]
  exact Finset.sum_congr rfl fun k _ => by ring

lemma dot_comm (v a b : κ → ℝ) : dot v a b = dot v b a := Finset.sum_congr rfl fun k _ => by ring

lemma dot_add' (v a b c : κ → ℝ) : dot v c (a + b) = dot v c a + dot v c b := by
  rw [dot_comm, dot_add, dot_comm v a, dot_comm v b]

lemma dot_sub' (v a b c : κ → ℝ) : dot v c (a - b) = dot v c a - dot v c b := by
  rw [dot_comm, dot_sub, dot_comm v a, dot_comm v b]

/-- Isserlis' theorem for four linear functions. -/
lemma quartic (h : Rows ν v R) (o : ο) (a a' b b' : κ → ℝ) :
    Integrable (fun ω => rowOut R o a ω * rowOut R o a' ω * (rowOut R o b ω * rowOut R o b' ω)) ν ∧
    ∫ ω, rowOut R o a ω * rowOut R o a' ω * (rowOut R o b ω * rowOut R o b' ω) ∂ν =
      dot v a a' * dot v b b' + dot v a b * dot v a' b' + dot v a b' * dot v a' b := by
  have s1 := h.sq_sq o (a + a') (b + b')
  have s2 := h.sq_sq o (a + a') (b - b')
  have s3 := h.sq_sq o (a - a') (b + b')
  have s4 := h.sq_sq o (a - a') (b - b')
  have e : ∀ ω, rowOut R o a ω * rowOut R o a' ω * (rowOut R o b ω * rowOut R o b' ω) =
      (1 / 16) * ((rowOut R o (a + a') ω ^ 2 * rowOut R o (b + b') ω ^ 2 - rowOut R o (a + a') ω ^ 2 * rowOut R o (b - b') ω ^ 2) -
        (rowOut R o (a - a') ω ^ 2 * rowOut R o (b + b') ω ^ 2 - rowOut R o (a - a') ω ^ 2 * rowOut R o (b - b') ω ^ 2)) := by
    intro ω
    simp only [rowOut_add, rowOut_sub]
    ring
  simp only [e]
  have i12 := s1.1.sub s2.1
  have i34 := s3.1.sub s4.1
  refine ⟨(i12.sub i34).const_mul _, ?_⟩
  rw [integral_const_mul]
  have := integral_sub i12 i34
  simp only [Pi.sub_apply] at this
  rw [this, integral_sub s1.1 s2.1, integral_sub s3.1 s4.1, s1.2, s2.2, s3.2, s4.2]
  simp only [dot_add, dot_sub, dot_add', dot_sub']
  rw [dot_comm v a' a, dot_comm v b' b]
  ring

/-- Fourth moments of the coefficients. -/
lemma isserlis [DecidableEq ο] [DecidableEq κ] (h : Rows ν v R) (o o' : ο) (k l k' l' : κ) :
    Integrable (fun ω => R o k ω * R o' l ω * (R o k' ω * R o' l' ω)) ν ∧
    ∫ ω, R o k ω * R o' l ω * (R o k' ω * R o' l' ω) ∂ν =
      (if o = o' ∧ k = l then v k else 0) * (if o = o' ∧ k' = l' then v k' else 0) + (if k = k' then v k else 0) * (if l = l' then v l else 0) +
        (if o = o' ∧ k = l' then v k else 0) * (if o = o' ∧ l = k' then v l else 0) := by
  have q := h.flat.quartic () (Pi.single (o, k) 1) (Pi.single (o', l) 1) (Pi.single (o, k') 1) (Pi.single (o', l') 1)
  have e : ∀ (i : ο × κ) ω, rowOut (fun (_ : Unit) (i : ο × κ) => R i.1 i.2) () (Pi.single i 1) ω = R i.1 i.2 ω := by
    intro i ω
    unfold rowOut
    rw [Finset.sum_eq_single i (fun j _ hj => by rw [Pi.single_eq_of_ne hj, mul_zero]) (by simp), Pi.single_eq_same, mul_one]
  have f : ∀ i j : ο × κ, dot (fun i : ο × κ => v i.2) (Pi.single i 1) (Pi.single j 1) = if i.1 = j.1 ∧ i.2 = j.2 then v i.2 else 0 := by
    intro i j
    unfold dot
    rw [Finset.sum_eq_single i (fun j _ hj => by rw [Pi.single_eq_of_ne hj, zero_mul, mul_zero]) (by simp), Pi.single_eq_same, one_mul]
    by_cases hij : i = j
    · rw [if_pos ⟨congrArg _ hij, congrArg _ hij⟩, hij, Pi.single_eq_same, mul_one]
    · rw [if_neg fun e => hij (Prod.ext e.1 e.2), Pi.single_eq_of_ne hij, mul_zero]
  simp only [e, f, true_and] at q
  refine ⟨q.1, q.2.trans ?_⟩
  simp only [eq_comm (a := o') (b := o)]

end Rows

/-- Bilinear forms in the coefficients of two outputs. -/
def quad (R : ο → κ → Ω → ℝ) (o o' : ο) (A : κ → κ → ℝ) (ω : Ω) : ℝ := ∑ k, ∑ l, R o k ω * R o' l ω * A k l

/-- The weighted sum of the squares of the entries. -/
def frob (v : κ → ℝ) (A : κ → κ → ℝ) : ℝ := ∑ k, ∑ l, v k * v l * A k l ^ 2

/-- The weighted trace. -/
def wtr (v : κ → ℝ) (A : κ → κ → ℝ) : ℝ := ∑ k, v k * A k k

namespace Rows

variable {ν : Measure Ω} {v : κ → ℝ} {R : ο → κ → Ω → ℝ}

lemma var_nonneg (h : Rows ν v R) (o : ο) (k : κ) : 0 ≤ v k := by
  rw [← h.var o k]
  exact integral_nonneg fun ω => mul_self_nonneg _

lemma integral_quad [DecidableEq ο] (h : Rows ν v R) (o o' : ο) (A : κ → κ → ℝ) :
    Integrable (quad R o o' A) ν ∧ ∫ ω, quad R o o' A ω ∂ν = if o = o' then wtr v A else 0 := by
  classical
  have hi : ∀ k l, Integrable (fun ω => R o k ω * R o' l ω * A k l) ν := fun k l => (h.integrable_mul o o' k l).mul_const _
  refine ⟨integrable_finsetSum _ fun k _ => integrable_finsetSum _ fun l _ => hi k l, ?_⟩
  unfold quad
  rw [integral_finsetSum _ fun k _ => integrable_finsetSum _ fun l _ => hi k l]
  simp only [integral_finsetSum _ fun l _ => hi _ l, integral_mul_const]
  have e : ∀ k l, ∫ ω, R o k ω * R o' l ω ∂ν = if o = o' ∧ k = l then v k else 0 := by
    intro k l
    split
    · rename_i hh
      rw [hh.1, hh.2]
      exact h.var _ _
    · rename_i hh
      exact h.cov _ _ _ _ (by simpa using hh)
  simp only [e]
  by_cases ho : o = o'
  · simp [ho, wtr]
  · simp [ho]

/-- The mean square deviation of a bilinear form from its mean. -/
lemma quad_sq [DecidableEq ο] (h : Rows ν v R) (o o' : ο) (A : κ → κ → ℝ) :
    Integrable (fun ω => (quad R o o' A ω - if o = o' then wtr v A else 0) ^ 2) ν ∧
    ∫ ω, (quad R o o' A ω - if o = o' then wtr v A else 0) ^ 2 ∂ν ≤ 2 * frob v A := by
  classical
  have := h.prob
  have hi : ∀ k l k' l', Integrable (fun ω => R o k ω * R o' l ω * (R o k' ω * R o' l' ω) * (A k l * A k' l')) ν :=
    fun k l k' l' => (h.isserlis o o' k l k' l').1.mul_const _
  have e : ∀ ω, quad R o o' A ω ^ 2 = ∑ k, ∑ l, ∑ k', ∑ l', R o k ω * R o' l ω * (R o k' ω * R o' l' ω) * (A k l * A k' l') := by
    intro ω
    rw [quad, sq, Finset.sum_mul]
    refine Finset.sum_congr rfl fun k _ => ?_
    rw [Finset.sum_mul]
    refine Finset.sum_congr rfl fun l _ => ?_
    rw [Finset.mul_sum]
    refine Finset.sum_congr rfl fun k' _ => ?_
    rw [Finset.mul_sum]
    exact Finset.sum_congr rfl fun l' _ => by ring
  have i4 : ∀ k, Integrable (fun ω => ∑ l, ∑ k', ∑ l', R o k ω * R o' l ω * (R o k' ω * R o' l' ω) * (A k l * A k' l')) ν := fun k =>
    integrable_finsetSum _ fun l _ => integrable_finsetSum _ fun k' _ => integrable_finsetSum _ fun l' _ => hi k l k' l'
  have iq : Integrable (fun ω => quad R o o' A ω ^ 2) ν := by
    simp only [e]
    exact integrable_finsetSum _ fun k _ => i4 k
  have E2 : ∫ ω, quad R o o' A ω ^ 2 ∂ν = (if o = o' then wtr v A else 0) ^ 2 + frob v A + if o = o' then ∑ k, ∑ l, v k * v l * (A k l * A l k) else 0 := by
    simp only [e]
    rw [integral_finsetSum _ fun k _ => i4 k]
    have s1 : ∀ k, ∫ ω, ∑ l, ∑ k', ∑ l', R o k ω * R o' l ω * (R o k' ω * R o' l' ω) * (A k l * A k' l') ∂ν =
        ∑ l, ∑ k', ∑ l', ((if o = o' ∧ k = l then v k else 0) * (if o = o' ∧ k' = l' then v k' else 0) + (if k = k' then v k else 0) * (if l = l' then v l else 0) +
        (if o = o' ∧ k = l' then v k else 0) * (if o = o' ∧ l = k' then v l else 0)) * (A k l * A k' l') := by
      intro k
      rw [integral_finsetSum _ fun l _ => integrable_finsetSum _ fun k' _ => integrable_finsetSum _ fun l' _ => hi k l k' l']
      refine Finset.sum_congr rfl fun l _ => ?_
      rw [integral_finsetSum _ fun k' _ => integrable_finsetSum _ fun l' _ => hi k l k' l']
      refine Finset.sum_congr rfl fun k' _ => ?_
      rw [integral_finsetSum _ fun l' _ => hi k l k' l']
      refine Finset.sum_congr rfl fun l' _ => ?_
      rw [integral_mul_const, (h.isserlis o o' k l k' l').2]
    simp only [s1, add_mul, Finset.sum_add_distrib]
    congr 1
    · congr 1
      · by_cases ho : o = o'
        · simp only [ho, true_and, if_true, wtr, sq]
          simp only [ite_mul, zero_mul, mul_ite, mul_zero, Finset.sum_ite_eq, Finset.mem_univ, if_true, Finset.sum_mul_sum]
          simp only [Finset.sum_ite_irrel, Finset.sum_const_zero, Finset.sum_ite_eq, Finset.mem_univ, if_true]
          exact Finset.sum_congr rfl fun k _ => Finset.sum_congr rfl fun l _ => by ring
        · simp [ho]
      · unfold frob
        refine Finset.sum_congr rfl fun k _ => Finset.sum_congr rfl fun l _ => ?_
        simp only [ite_mul, zero_mul, mul_ite, mul_zero, Finset.sum_ite_eq, Finset.mem_univ, if_true]
        ring
    · by_cases ho : o = o'
      · simp only [ho, true_and, if_true]
        refine Finset.sum_congr rfl fun k _ => Finset.sum_congr rfl fun l _ => ?_
        simp only [ite_mul, zero_mul, mul_ite, mul_zero, Finset.sum_ite_irrel, Finset.sum_const_zero, Finset.sum_ite_eq, Finset.mem_univ, if_true]
      · simp [ho]
  have q := h.integral_quad o o' A
  set m := if o = o' then wtr v A else 0 with hm
  have ex : ∀ ω, (quad R o o' A ω - m) ^ 2 = quad R o o' A ω ^ 2 - 2 * m * quad R o o' A ω + m ^ 2 := fun ω => by ring
  simp only [ex]
  have i1 := iq.sub (q.1.const_mul (2 * m))
  refine ⟨i1.add (integrable_const _), ?_⟩
  have := integral_add i1 (integrable_const (m ^ 2))
  simp only [Pi.sub_apply] at this
  rw [this, integral_sub iq (q.1.const_mul _), integral_const_mul, q.2, E2, integral_const, probReal_univ, one_smul]
  have hle : (if o = o' then ∑ k, ∑ l, v k * v l * (A k l * A l k) else 0) ≤ frob v A := by
    have h0 : ∀ k l, 0 ≤ v k * v l := fun k l => mul_nonneg (h.var_nonneg o k) (h.var_nonneg o l)
    split
    · have sw : frob v A = ∑ k, ∑ l, v k * v l * A l k ^ 2 := by
        unfold frob
        rw [Finset.sum_comm]
        exact Finset.sum_congr rfl fun k _ => Finset.sum_congr rfl fun l _ => by ring
      have : 2 * (∑ k, ∑ l, v k * v l * (A k l * A l k)) ≤ frob v A + frob v A := by
        conv_rhs => rw [sw]
        rw [← sw]
        conv_rhs => arg 2; rw [sw]
        rw [frob, Finset.mul_sum, ← Finset.sum_add_distrib]
        refine Finset.sum_le_sum fun k _ => ?_
        rw [Finset.mul_sum, ← Finset.sum_add_distrib]
        refine Finset.sum_le_sum fun l _ => ?_
        nlinarith [h0 k l, mul_nonneg (h0 k l) (sq_nonneg (A k l - A l k))]
      linarith
    · exact Finset.sum_nonneg fun k _ => Finset.sum_nonneg fun l _ => mul_nonneg (h0 k l) (sq_nonneg _)
  nlinarith

end Rows

end NT.Gauss
