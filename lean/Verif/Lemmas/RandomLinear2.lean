import Verif.Lemmas.RandomLinear
import Verif.Lemmas.Channels
import Verif.Props.C52

/-! The outputs of a layer with fresh random parameters are square integrable and have square integrable gradients. -/

namespace NT
open Spec MeasureTheory ProbabilityTheory

variable {E : Type} [NormedAddCommGroup E] [InnerProductSpace ℝ E] [CompleteSpace E] [MeasurableSpace E]
variable {ι : Type} [Fintype ι] {v : ι → ℝ}

omit [NormedAddCommGroup E] [InnerProductSpace ℝ E] [CompleteSpace E] [Fintype ι] in
lemma ext_embedding : MeasurableEmbedding (WithLp.toLp 2 : E × EuclideanSpace ℝ ι → Ext E ι) :=
  (MeasurableEquiv.toLp 2 (E × EuclideanSpace ℝ ι)).measurableEmbedding

omit [InnerProductSpace ℝ E] [CompleteSpace E] in
lemma integrable_ext (μ : Measure E) (ν : Measure (EuclideanSpace ℝ ι)) (f : Ext E ι → ℝ) :
    Integrable f (extMeasure μ ν) ↔ Integrable (fun y => f (WithLp.toLp 2 y)) (μ.prod ν) := by
  unfold extMeasure
  exact ext_embedding.integrable_map_iff

omit [InnerProductSpace ℝ E] [CompleteSpace E] in
lemma ext_prob (μ : Measure E) (ν : Measure (EuclideanSpace ℝ ι)) [IsProbabilityMeasure μ] [IsProbabilityMeasure ν] :
    IsProbabilityMeasure (extMeasure μ ν) :=
  Measure.isProbabilityMeasure_map ext_embedding.measurable.aemeasurable

omit [InnerProductSpace ℝ E] [CompleteSpace E] in
lemma ae_ext (μ : Measure E) (ν : Measure (EuclideanSpace ℝ ι)) [SFinite μ] [SFinite ν] {P : Ext E ι → Prop} (h : ∀ᵐ y ∂μ.prod ν, P (WithLp.toLp 2 y)) :
    ∀ᵐ x ∂extMeasure μ ν, P x := by
  unfold extMeasure
  exact ext_embedding.ae_map_iff.2 h

lemma linOut_memLp (μ : Measure E) [SFinite μ] (ν : Measure (EuclideanSpace ℝ ι)) (hν : Uncorrelated ν v) (g : ι → E → ℝ) (hg : ∀ k, MemLp (g k) 2 μ) :
    MemLp (linOut g) 2 (extMeasure μ ν) := by
  have := hν.prob
  unfold extMeasure
  rw [ext_embedding.memLp_map_measure_iff]
  have hm : AEStronglyMeasurable ((linOut g) ∘ (WithLp.toLp 2 : E × EuclideanSpace ℝ ι → Ext E ι)) (μ.prod ν) := by
    have : ((linOut g) ∘ (WithLp.toLp 2 : E × EuclideanSpace ℝ ι → Ext E ι)) = fun y => ∑ k, y.2 k * g k y.1 := by
      funext y; rfl
    rw [this]
    refine Finset.aestronglyMeasurable_fun_sum _ fun k _ => ?_
    exact ((hν.memLp k).aestronglyMeasurable.comp_snd).mul ((hg k).aestronglyMeasurable.comp_fst)
  rw [memLp_two_iff_integrable_sq hm]
  have := (integral_quadratic μ ν v hν (fun k l θ => g k θ * g l θ) fun k l => (hg k).integrable_mul (hg l)).1
  refine this.congr (Filter.Eventually.of_forall fun y => ?_)
  simp only [Function.comp, linOut, sq]
  rw [Finset.sum_mul_sum]
  refine Finset.sum_congr rfl fun k _ => Finset.sum_congr rfl fun l _ => ?_
  show g k y.1 * g l y.1 * (y.2 k * y.2 l) = y.2 k * g k y.1 * (y.2 l * g l y.1)
  ring

lemma linOut_diff (μ : Measure E) [SFinite μ] (ν : Measure (EuclideanSpace ℝ ι)) [SFinite ν] (g : ι → E → ℝ)
    (hd : ∀ k, ∀ᵐ θ ∂μ, DifferentiableAt ℝ (g k) θ) : ∀ᵐ x ∂extMeasure μ ν, DifferentiableAt ℝ (linOut g) x := by
  refine ae_ext μ ν ?_
  filter_upwards [(Measure.quasiMeasurePreserving_fst (μ := μ) (ν := ν)).ae (ae_all_iff.2 hd)] with y hy
  exact (linOut_hasGradientAt g y.1 y.2 hy).differentiableAt

lemma linOut_grad (μ : Measure E) [SFinite μ] (ν : Measure (EuclideanSpace ℝ ι)) (hν : Uncorrelated ν v) (g g' : ι → E → ℝ)
    (hg : ∀ k, Integrable (fun θ => g k θ * g' k θ) μ)
    (hd : ∀ k, ∀ᵐ θ ∂μ, DifferentiableAt ℝ (g k) θ) (hd' : ∀ k, ∀ᵐ θ ∂μ, DifferentiableAt ℝ (g' k) θ)
    (hi : ∀ k l, Integrable (fun θ => inner ℝ (gradient (g k) θ) (gradient (g' l) θ)) μ) :
    Integrable (fun x => inner ℝ (gradient (linOut g) x) (gradient (linOut g') x)) (extMeasure μ ν) := by
  have := hν.prob
  rw [integrable_ext]
  obtain ⟨q1, -⟩ := integral_quadratic μ ν v hν (fun k l θ => inner ℝ (gradient (g k) θ) (gradient (g' l) θ)) hi
  have hd2 : ∀ᵐ y ∂(μ.prod ν), (∀ k, DifferentiableAt ℝ (g k) y.1) ∧ ∀ k, DifferentiableAt ℝ (g' k) y.1 :=
    (Measure.quasiMeasurePreserving_fst (μ := μ) (ν := ν)).ae ((ae_all_iff.2 hd).and (ae_all_iff.2 hd'))
  have h1 : ∀ k, Integrable (fun y : E × EuclideanSpace ℝ ι => g k y.1 * g' k y.1) (μ.prod ν) := fun k => (hg k).comp_fst ν
  refine ((integrable_finsetSum Finset.univ fun k _ => h1 k).add q1).congr ?_
  filter_upwards [hd2] with y hy
  rw [(linOut_hasGradientAt g y.1 y.2 hy.1).gradient, (linOut_hasGradientAt g' y.1 y.2 hy.2).gradient, WithLp.prod_inner_apply, add_comm]
  simp only [Pi.add_apply]
  congr 1
  · show _ = inner ℝ (∑ k, y.2 k • gradient (g k) y.1) (∑ k, y.2 k • gradient (g' k) y.1)
    rw [sum_inner]
    refine Finset.sum_congr rfl fun k _ => ?_
    rw [inner_sum]
    refine Finset.sum_congr rfl fun l _ => ?_
    rw [real_inner_smul_left, real_inner_smul_right]
    ring
  · rw [EuclideanSpace.inner_eq_star_dotProduct]
    simp only [dotProduct]
    refine Finset.sum_congr rfl fun k _ => ?_
    simp [mul_comm]

/-- Random functions that are regular stay so after a dense layer. -/
lemma Regular.dense {μ : Measure E} [IsProbabilityMeasure μ] {d : Dense} {C n1 n2 : ℕ} {S1 S2 : List ℕ} {f1 f2 : ℕ → ℕ → List ℕ → E → ℝ}
    (h : Regular μ C n1 n2 S1 S2 f1 f2) (D : ℕ) {B : ℕ} (ν : Measure (EuclideanSpace ℝ (C52.Idx C D B))) {v : C52.Idx C D B → ℝ} (hν : Uncorrelated ν v) :
    Regular (extMeasure μ ν) D n1 n2 S1 S2 (fun i o p => linOut (C52.coef d o fun c => f1 i c p)) (fun i o p => linOut (C52.coef d o fun c => f2 i c p)) where
  sq1 i hi o _ p hp := linOut_memLp μ ν hν _ fun k => C52.coef_sq μ o _ (fun c hc => h.sq1 i hi c hc p hp) k
  sq2 i hi o _ p hp := linOut_memLp μ ν hν _ fun k => C52.coef_sq μ o _ (fun c hc => h.sq2 i hi c hc p hp) k
  diff1 i hi o _ p hp := by
    have := hν.prob
    exact linOut_diff μ ν _ fun k => C52.coef_diff μ o _ k fun c hc => h.diff1 i hi c hc p hp
  diff2 i hi o _ p hp := by
    have := hν.prob
    exact linOut_diff μ ν _ fun k => C52.coef_diff μ o _ k fun c hc => h.diff2 i hi c hc p hp
  grad i hi j hj o _ o' _ p q hp hq := by
    have d1 := fun c hc => h.diff1 i hi c hc p hp
    have d2 := fun c hc => h.diff2 j hj c hc q hq
    refine linOut_grad μ ν hν _ _ (fun k => (C52.coef_sq μ o _ (fun c hc => h.sq1 i hi c hc p hp) k).integrable_mul
      (C52.coef_sq μ o' _ (fun c hc => h.sq2 j hj c hc q hq) k)) (fun k => C52.coef_diff μ o _ k d1) (fun k => C52.coef_diff μ o' _ k d2) fun k l => ?_
    have e1 := C52.coef_grad (d := d) (C := C) (D := D) (B := B) μ o (fun c => f1 i c p) k d1
    have e2 := C52.coef_grad (d := d) (C := C) (D := D) (B := B) μ o' (fun c => f2 j c q) l d2
    rcases k with ⟨c, a⟩ | a
    · rcases l with ⟨c', a'⟩ | a'
      · refine Integrable.congr (f := fun θ => if (a : ℕ) = o ∧ (a' : ℕ) = o' then
          (d.gain C) ^ 2 * inner ℝ (gradient (f1 i c p) θ) (gradient (f2 j c' q) θ) else 0) ?_ ?_
        · split
          · exact (h.grad i hi j hj c c.2 c' c'.2 p q hp hq).const_mul _
          · exact integrable_const 0
        · filter_upwards [e1, e2] with θ e1 e2
          rw [e1, e2]
          by_cases ha : (a : ℕ) = o <;> by_cases ha' : (a' : ℕ) = o' <;>
            simp [ha, ha', real_inner_smul_right]
          ring
      · refine (integrable_const (0 : ℝ)).congr ?_
        filter_upwards [e2] with θ e2
        rw [e2]
        simp
    · refine (integrable_const (0 : ℝ)).congr ?_
      filter_upwards [e1] with θ e1
      rw [e1]
      simp

end NT
