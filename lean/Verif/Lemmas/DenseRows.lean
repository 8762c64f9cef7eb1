import Verif.Tac
import Verif.Lemmas.Rows
import Verif.Spec.Wide
import Mathlib.Probability.Independence.Integration

/-!
# The channels of a `Dense` layer with random parameters are independent given the inputs of the layer
-/

set_option linter.unusedSectionVars false

namespace NT.Gauss
open MeasureTheory ProbabilityTheory Spec

variable {ι ο κ : Type} [Fintype ι] [Fintype ο] [Fintype κ]

lemma normalVector_eval (u : ι → ℝ) {F : (ι → ℝ) → ℝ} (hF : Measurable F) :
    ∫ w, F (WithLp.ofLp w) ∂(normalVector u) = ∫ w, F w ∂(Measure.pi fun k => gaussianReal 0 (u k).toNNReal) := by
  unfold normalVector
  rw [integral_map (by fun_prop) (Measurable.aestronglyMeasurable (by fun_prop))]

lemma pi_indep (u : ι → ℝ) : iIndepFun (fun k (w : ι → ℝ) => w k) (Measure.pi fun k => gaussianReal 0 (u k).toNNReal) :=
  iIndepFun_pi (X := fun _ x => x) fun _ => aemeasurable_id

lemma pi_law (u : ι → ℝ) (k : ι) : (Measure.pi fun k => gaussianReal 0 (u k).toNNReal).map (fun w : ι → ℝ => w k) = gaussianReal 0 (u k).toNNReal :=
  (measurePreserving_eval _ k).map_eq

lemma pi_integral (u : ι → ℝ) (k : ι) {F : ℝ → ℝ} (hF : Measurable F) :
    ∫ w, F (w k) ∂(Measure.pi fun k => gaussianReal 0 (u k).toNNReal) = ∫ x, F x ∂(gaussianReal 0 (u k).toNNReal) := by
  rw [← pi_law u k, integral_map (measurable_pi_apply k).aemeasurable hF.aestronglyMeasurable]

lemma gauss_normalVector (u : ι → ℝ) : HasGaussianLaw (fun (w : EuclideanSpace ℝ ι) (k : ι) => w k) (normalVector u) := by
  have h : HasGaussianLaw (fun (w : ι → ℝ) k => w k) (Measure.pi fun k => gaussianReal 0 (u k).toNNReal) := by
    refine iIndepFun.hasGaussianLaw (X := fun k (w : ι → ℝ) => w k) (fun k => ?_) (pi_indep u)
    constructor
    rw [pi_law]
    infer_instance
  constructor
  have := h.isGaussian_map
  unfold normalVector
  rw [Measure.map_map (by fun_prop) (by fun_prop)]
  exact this

/-- Entries of a normal vector, arranged as rows; missing ones are 0. -/
noncomputable def pick (idx : ο → κ → Option ι) (o : ο) (k : κ) (w : EuclideanSpace ℝ ι) : ℝ := (idx o k).elim 0 fun i => w i

lemma normal_mean (u : ι → ℝ) (i : ι) : ∫ w, w i ∂(normalVector u) = 0 := by
  rw [normalVector_eval u (F := fun x => x i) (by fun_prop), pi_integral u i (F := fun x => x) measurable_id]
  exact integral_id_gaussianReal

lemma normal_var (u : ι → ℝ) (hu : ∀ k, 0 ≤ u k) (i : ι) : ∫ w, w i * w i ∂(normalVector u) = u i := by
  rw [normalVector_eval u (F := fun x => x i * x i) (by fun_prop), pi_integral u i (F := fun x => x * x) (by fun_prop)]
  have h := variance_fun_id_gaussianReal (μ := 0) (v := (u i).toNNReal)
  rw [variance_eq_integral measurable_id'.aemeasurable] at h
  simp only [integral_id_gaussianReal, sub_zero, Real.coe_toNNReal _ (hu i), pow_two] at h
  exact h

lemma normal_cov (u : ι → ℝ) (i j : ι) (h : i ≠ j) : ∫ w, w i * w j ∂(normalVector u) = 0 := by
  rw [normalVector_eval u (F := fun x => x i * x j) (by fun_prop)]
  have := ((pi_indep u).indepFun h).integral_fun_mul_eq_mul_integral (measurable_pi_apply i).aestronglyMeasurable (measurable_pi_apply j).aestronglyMeasurable
  refine this.trans ?_
  rw [pi_integral u i (F := fun x => x) measurable_id, integral_id_gaussianReal, zero_mul]

lemma rows_pick (u : ι → ℝ) (hu : ∀ k, 0 ≤ u k) (idx : ο → κ → Option ι) (v : κ → ℝ) (hv : ∀ o k i, idx o k = some i → v k = u i)
    (h0 : ∀ o k, idx o k = none → v k = 0) (hi : ∀ o k o' k' i, idx o k = some i → idx o' k' = some i → (o, k) = (o', k')) :
    Rows (normalVector u) v (pick idx) where
  gauss := by
    let L : (ι → ℝ) →L[ℝ] (ο → κ → ℝ) :=
      ContinuousLinearMap.pi fun o => ContinuousLinearMap.pi fun k => (idx o k).elim 0 fun i => ContinuousLinearMap.proj (R := ℝ) (φ := fun _ : ι => ℝ) i
    refine Eq.mp (congrArg (HasGaussianLaw · (normalVector u)) ?_) ((gauss_normalVector u).map_fun L)
    funext w o k
    simp only [L, ContinuousLinearMap.coe_pi', pick]
    cases idx o k <;> rfl
  meas o k := by
    unfold pick
    cases idx o k
    · exact measurable_const
    · simp only [Option.elim]
      fun_prop
  mean o k := by
    unfold pick
    cases h : idx o k
    · simp
    · exact normal_mean u _
  var o k := by
    unfold pick
    cases h : idx o k
    · simp [h0 o k h]
    · rw [hv o k _ h]
      exact normal_var u hu _
  cov o k o' k' hne := by
    unfold pick
    cases h : idx o k
    · simp
    · cases h' : idx o' k'
      · simp
      · refine normal_cov u _ _ fun e => hne (hi o k o' k' _ h ?_)
        rw [h', e]

end NT.Gauss

namespace NT.Spec
open NT Gauss MeasureTheory ProbabilityTheory C52

variable (d : Dense) {C : ℕ}

/-- The parameters of output channel `o`: the column of `W` and the bias. -/
def denseIdx (o : Fin d.width) : Fin C ⊕ Unit → Option (Idx C d.width (nBias d))
  | .inl c => some (.inl (c, o))
  | .inr _ => if h : (o : ℕ) < nBias d then some (.inr ⟨o, h⟩) else none

/-- Variances of the parameters of an output channel. -/
noncomputable def denseVar (C : ℕ) : Fin C ⊕ Unit → ℝ
  | .inl _ => (d.scaleW C) ^ 2
  | .inr _ => if d.bStd.isSome then d.scaleB ^ 2 else 0

/-- What the parameters of an output channel are multiplied with. -/
noncomputable def denseIn (C : ℕ) (f : ℕ → ℝ) : Fin C ⊕ Unit → ℝ
  | .inl c => d.gain C * f c
  | .inr _ => d.biasGain

lemma dense_rows : Rows (normalVector (initVar d)) (denseVar d C) (pick (denseIdx d (C := C))) := by
  refine rows_pick _ (fun k => ?_) _ _ (fun o k i h => ?_) (fun o k h => ?_) fun o k o' k' i h h' => ?_
  · rcases k with k | k
    · exact sq_nonneg (d.scaleW C)
    · exact sq_nonneg d.scaleB
  · rcases k with c | _
    · simp only [denseIdx, Option.some.injEq] at h
      subst h
      rfl
    · simp only [denseIdx] at h
      split at h
      · rename_i hb
        simp only [Option.some.injEq] at h
        subst h
        simp only [denseVar, initVar]
        rw [if_pos]
        unfold nBias at hb
        by_contra hc
        simp [hc] at hb
      · simp at h
  · rcases k with c | _
    · simp [denseIdx] at h
    · simp only [denseIdx] at h
      split at h
      · simp at h
      · rename_i hb
        simp only [denseVar]
        rw [if_neg]
        intro hc
        unfold nBias at hb
        rw [if_pos hc] at hb
        exact hb o.2
  · rcases k with c | _ <;> rcases k' with c' | _ <;> simp only [denseIdx] at h h'
    · simp only [Option.some.injEq] at h h'
      have := h.trans h'.symm
      simp only [Sum.inl.injEq, Prod.mk.injEq] at this
      rw [this.1, this.2]
    · split at h'
      · simp only [Option.some.injEq] at h h'
        simpa using h.trans h'.symm
      · simp at h'
    · split at h
      · simp only [Option.some.injEq] at h h'
        simpa using h.trans h'.symm
      · simp at h
    · split at h
      · split at h'
        · simp only [Option.some.injEq] at h h'
          have := h.trans h'.symm
          simp only [Sum.inr.injEq, Fin.mk.injEq] at this
          rw [Fin.ext this]
        · simp at h'
      · simp at h

variable {E : Type} [NormedAddCommGroup E] [InnerProductSpace ℝ E] [CompleteSpace E] [MeasurableSpace E]

lemma linOut_rowOut (o : Fin d.width) (f : ℕ → E → ℝ) (x : Ext E (Idx C d.width (nBias d))) :
    linOut (coef d o f) x = rowOut (pick (denseIdx d (C := C))) o (denseIn d C fun c => f c x.fst) x.snd := by
  unfold linOut rowOut
  rw [Fintype.sum_sum_type, Fintype.sum_sum_type, Fintype.sum_prod_type]
  congr 1
  · refine Finset.sum_congr rfl fun c _ => ?_
    simp only [coef, mul_ite, mul_zero]
    rw [sum_ite_fin o o.2 fun o' => x.snd (.inl (c, o')) * (d.gain C * f c x.fst)]
    rfl
  · simp only [coef, mul_ite, mul_zero, Finset.univ_unique, Finset.sum_singleton, pick, denseIdx, denseIn]
    rcases nBias_or d with h | h
    · rw [dif_neg (by omega)]
      simp only [Option.elim, zero_mul]
      refine Finset.sum_eq_zero fun o' _ => absurd o'.2 (by omega)
    · have ho : (o : ℕ) < nBias d := by rw [h]; exact o.2
      rw [dif_pos ho]
      exact sum_ite_fin o ho fun o' => x.snd (.inr o') * d.biasGain

lemma rowCov_dense (hd : d.param ≠ .other) (hC : 0 < C) (hs : d.param = .standard → 0 < d.s.1) (f g : ℕ → ℝ) :
    ∑ k, denseVar d C k * (denseIn d C f k * denseIn d C g k) = d.wStd ^ 2 * ((∑ c ∈ Finset.range C, f c * g c) / C) + bVar d := by
  rw [Fintype.sum_sum_type]
  simp only [denseVar, denseIn, Finset.univ_unique, Finset.sum_singleton]
  congr 1
  · rw [Finset.sum_range, mul_div_assoc', mul_div_right_comm, ← gain_scale hd C hC hs, Finset.mul_sum]
    exact Finset.sum_congr rfl fun c _ => by ring
  · rcases hb : d.bStd with _ | b
    · simp [bVar, hb]
    · simp only [Option.isSome_some, if_true]
      rw [bVar, hb, Option.getD_some, ← bias_scale hd b hb]
      ring

end NT.Spec
